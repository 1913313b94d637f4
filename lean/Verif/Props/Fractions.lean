/-
C37: fractions of whole-number options, the indicators that count with the option itself. In exact arithmetic.
-/
import Verif.Props.Options
import Verif.Props.Flow
import Verif.Model.Fractal

namespace Verif
set_option linter.unusedSectionVars false
set_option linter.unusedSimpArgs false
set_option linter.unusedVariables false

section Field
variable {R : Type} [Field R] [LinearOrder R] [IsStrictOrderedRing R] [CMath R] [LawfulTrunc R] [LawfulRound R]

theorem session_congr {ρ ω : Type} {I : Indicator R ρ ω} {o o' : Nat → R} {k k' : I.κ} {p : Int} {s : I.σ} (h : I.new o = .ok (.made k p s))
    (h' : I.new o' = .ok (.made k' p s)) (hp : I.phases k = I.phases k') (chunks : List (List ρ)) : I.session o chunks = I.session o' chunks := by
  have hr : ∀ (cs : List (List ρ)) (q : Int) (t : I.σ), I.runs k cs q t = I.runs k' cs q t := by
    intro cs
    induction cs with
    | nil => intro q t; rfl
    | cons c cs ih =>
      intro q t
      simp only [Indicator.runs, hp]
      cases runPhases (I.phases k') c q t with
      | error e => rfl
      | ok u =>
        obtain ⟨u1, u2, u3⟩ := u
        dsimp only
        rw [ih]
  simp only [Indicator.session, h, h', hr]

/-- A number with whole part `p ≥ 1`: what the code computes from it besides its whole part. -/
theorem whole_facts {v : R} {p : Int} (h : toInt v = .ok p) (hp : 1 ≤ p) : (p : R) ≤ v ∧ v < p + 1 := by
  obtain ⟨n, rfl⟩ := Int.eq_ofNat_of_zero_le (show 0 ≤ p by omega)
  have := toInt_within (R := R) h (by omega)
  exact_mod_cast this

theorem trunc_eq {v : R} {n : Int} (h0 : 0 ≤ n) (h1 : (n : R) ≤ v) (h2 : v < n + 1) : CMath.trunc v = n := by
  have hv : 0 ≤ v := le_trans (by exact_mod_cast h0) h1
  have h := LawfulRound.trunc_nonneg v hv
  have a : ((CMath.trunc v : Int) : R) < ((n + 1 : Int) : R) := by push_cast; linarith [h.1]
  have b : ((n : Int) : R) < ((CMath.trunc v + 1 : Int) : R) := by push_cast; linarith [h.2]
  have := Int.cast_lt.1 a
  have := Int.cast_lt.1 b
  omega

theorem whole_add_one {v : R} {p : Int} (h : toInt v = .ok p) (hp : 1 ≤ p) : toInt (v + c! 1) = i32 (p + 1) := by
  have hv := whole_facts h hp
  unfold toInt
  rw [trunc_eq (n := p + 1) (by omega) (by push_cast; linarith) (by push_cast; linarith)]

theorem whole_neg_add_one {v : R} {p : Int} (h : toInt v = .ok p) (hp : 1 ≤ p) : toInt (-v + c! 1) = .ok (1 - p) := by
  obtain ⟨n, rfl⟩ := Int.eq_ofNat_of_zero_le (show 0 ≤ p by omega)
  exact toInt_negSucc h (by omega)

theorem whole_half {v : R} {p : Int} (h : toInt v = .ok p) (hp : 1 ≤ p) : toInt (v / c! 2) = i32 (p / 2) := by
  have hv := whole_facts h hp
  have e1 : 2 * (p / 2) ≤ p := by omega
  have e2 : p + 1 ≤ 2 * (p / 2) + 2 := by omega
  have f1 : (2 : R) * ((p / 2 : Int) : R) ≤ p := by exact_mod_cast e1
  have f2 : (p : R) + 1 ≤ 2 * ((p / 2 : Int) : R) + 2 := by exact_mod_cast e2
  unfold toInt
  rw [trunc_eq (n := p / 2) (by omega) (by push_cast; linarith) (by push_cast; linarith)]

theorem whole_le {v : R} {p : Int} (h : toInt v = .ok p) (hp : 1 ≤ p) (n : Int) : (n : R) ≤ v ↔ n ≤ p := by
  have hv := whole_facts h hp
  constructor
  · intro hn
    have : (n : R) < ((p + 1 : Int) : R) := by push_cast; linarith
    have := Int.cast_lt.1 this
    omega
  · intro hn
    have : (n : R) ≤ p := by exact_mod_cast hn
    linarith

theorem vwap_fractions_partial : (vwap (R := R)).IgnoresFractionsFromOne [0] :=
  ignoresFractionsFromOne_of (fun o o' h h1 => by
    obtain ⟨p, a, b, c, d, e, f⟩ := h.whole h1 0 (by decide)
    have hp := h1 0 (by decide) p a
    exact ⟨by simp only [vwap, vwapStart, a, b], fun xs => by
      simp only [vwap, vwapBatch, vwapStart, a, b, e, f, if_false, whole_neg_add_one a hp, whole_neg_add_one b hp]⟩) (fun o o' h h1 => by
    obtain ⟨p, a, b, c, d, e, f⟩ := h.whole h1 0 (by decide)
    have hp := h1 0 (by decide) p a
    simp only [vwap, vwapNew, vwapStart, a, b, e, f, if_false, whole_add_one a hp, whole_add_one b hp])

theorem rmf_fractions_partial : (rmf (R := R)).IgnoresFractionsFromOne [1] := by
  have key : ∀ o o' : Nat → R, SameUpToFractions [1] o o' → FromOne [1] o → rmfPhases (o 1, rmfAlpha (o 0)) = rmfPhases (o' 1, rmfAlpha (o' 0)) := by
    intro o o' h h1
    obtain ⟨p, a, b, c, d, e, f⟩ := h.whole h1 1 (by decide)
    have hp := h1 1 (by decide) p a
    have r0 := h.real 0 (by decide)
    simp only [rmfPhases, whole_half a hp, whole_half b hp, r0]
  have bad : ∀ o o' : Nat → R, SameUpToFractions [1] o o' → FromOne [1] o → rmfBad o = rmfBad o' ∧ rmfStart o = rmfStart o' := by
    intro o o' h h1
    obtain ⟨p, a, b, c, d, e, f⟩ := h.whole h1 1 (by decide)
    have r0 := h.real 0 (by decide)
    simp only [rmfBad, rmfStart, a, b, c, d, e, f, r0, and_self]
  refine ⟨fun o o' h h1 => ⟨(bad o o' h h1).2, fun xs => ?_⟩, fun o o' h h1 chunks => ?_⟩
  · show rmfBatch o xs = rmfBatch o' xs
    simp only [rmfBatch, (bad o o' h h1).1, (bad o o' h h1).2, key o o' h h1]
  · obtain ⟨b1, b2⟩ := bad o o' h h1
    obtain ⟨p, a, b, c, d, e, f⟩ := h.whole h1 1 (by decide)
    have r0 := h.real 0 (by decide)
    cases hb : rmfBad o' with
    | error e => simp only [Indicator.session, rmf, rmfNew, b1, hb, bind_err]; rfl
    | ok t =>
      cases t with
      | true => simp only [Indicator.session, rmf, rmfNew, b1, hb, bind_ok, if_true]
      | false =>
        refine session_congr (I := rmf) (k := (o 1, rmfAlpha (o 0))) (k' := (o' 1, rmfAlpha (o' 0))) (p := -(p - 1)) (s := ⟨some (c! 0), [], []⟩)
          ?_ ?_ (key o o' h h1) chunks
        · show rmfNew o = _
          simp only [rmfNew, b1, hb, bind_ok, rmfStart, c]; rfl
        · show rmfNew o' = _
          simp only [rmfNew, hb, bind_ok, rmfStart, d]; rfl

theorem vi_fractions_partial : (vi (R := R)).IgnoresFractionsFromOne [0] := by
  refine ⟨fun o o' h h1 => ?_, fun o o' h h1 chunks => ?_⟩
  · obtain ⟨p, a, b, c, d, e, f⟩ := h.whole h1 0 (by decide)
    exact ⟨by simp only [vi, viStart, a, b], fun xs => by simp only [vi, viBatch, viStart, a, b, e, f, if_false]⟩
  · obtain ⟨p, a, b, c, d, e, f⟩ := h.whole h1 0 (by decide)
    have hp := h1 0 (by decide) p a
    refine session_congr (I := vi) (k := o 0) (k' := o' 0) (p := -p) (s := ⟨⟨c! 0, c! 0, c! 0⟩, []⟩) ?_ ?_ ?_ chunks
    · show viNew o = _
      simp only [viNew, viStart, a, e, if_false, bind_ok]; rfl
    · show viNew o' = _
      simp only [viNew, viStart, b, f, if_false, bind_ok]; rfl
    · show viPhases (o 0) = viPhases (o' 0)
      have g : ∀ n : Int, (o 0 < ((n : Int) : R) ↔ p < n) := fun n => by rw [← not_le, whole_le a hp, not_le]
      have g' : ∀ n : Int, (o' 0 < ((n : Int) : R) ↔ p < n) := fun n => by rw [← not_le, whole_le b hp, not_le]
      simp only [viPhases, whole_le a hp, whole_le b hp, g, g']

/-- The stream of rmi; its batch call does not ignore the fraction of its lookback period (`rmi_fractions_violates`). -/
theorem rmi_stream_fractions_partial (o o' : Nat → R) (h : SameUpToFractions [1] o o') (h1 : FromOne [1] o) (chunks : List (List R)) :
    rmiStart o = rmiStart o' ∧ (rmi (R := R)).session o chunks = (rmi (R := R)).session o' chunks := by
  obtain ⟨p, a, b, c, d, e, f⟩ := h.whole h1 1 (by decide)
  have hp := h1 1 (by decide) p a
  have r0 := h.real 0 (by decide)
  refine ⟨by simp only [rmiStart, a, b], ?_⟩
  by_cases h0 : o' 0 < c! 1
  · simp only [Indicator.session, rmi, rmiNew, r0, if_pos h0, pure_eq]
  have e1 : (i32 (p + 1) >>= fun n => Ring.make (R := R) n) = (toInt (o 1 + c! 1) >>= fun n => Ring.make n) := by rw [whole_add_one a hp]
  have e2 : (i32 (p + 1) >>= fun n => Ring.make (R := R) n) = (toInt (o' 1 + c! 1) >>= fun n => Ring.make n) := by rw [whole_add_one b hp]
  cases hr : (i32 (p + 1) >>= fun n => Ring.make (R := R) n) with
  | error er =>
    cases hi : i32 (p + 1) with
    | error ee =>
      simp only [Indicator.session, rmi, rmiNew, r0, if_neg h0, if_neg e, if_neg f, rmiStart, a, b, bind_ok, whole_add_one a hp, whole_add_one b hp, hi, bind_err]; rfl
    | ok m =>
      rw [hi, bind_ok] at hr
      simp only [Indicator.session, rmi, rmiNew, r0, if_neg h0, if_neg e, if_neg f, rmiStart, a, b, bind_ok, whole_add_one a hp, whole_add_one b hp, hi, hr, bind_err]; rfl
  | ok ring =>
    cases hi : i32 (p + 1) with
    | error ee => rw [hi] at hr; cases hr
    | ok m =>
      rw [hi, bind_ok] at hr
      refine session_congr (I := rmi) (k := (o 0, o 1)) (k' := (o' 0, o' 1)) (p := -p) (s := ⟨c! 0, c! 0, ring⟩) ?_ ?_ ?_ chunks
      · show rmiNew o = _
        simp only [rmiNew, r0, if_neg h0, if_neg e, rmiStart, a, bind_ok, whole_add_one a hp, hi, hr]; rfl
      · show rmiNew o' = _
        simp only [rmiNew, if_neg h0, if_neg f, rmiStart, b, bind_ok, whole_add_one b hp, hi, hr]; rfl
      · show rmiPhases (o 0, o 1) = rmiPhases (o' 0, o' 1)
        simp only [rmiPhases, a, b, r0]

end Field

/-! ### Where a fraction changes the results -/

theorem same_head {a b : ℚ} {p : Int} (l : List ℚ) (ha : toInt a = .ok p) (hb : toInt b = .ok p) : SameUpToFractions [0] (opts (a :: l)) (opts (b :: l)) := by
  intro i
  cases i with
  | zero => exact ⟨p, ha, hb⟩
  | succ i => simp [opts]

theorem same_second {a b : ℚ} {p : Int} (c : ℚ) (l : List ℚ) (ha : toInt a = .ok p) (hb : toInt b = .ok p) :
    SameUpToFractions [1] (opts (c :: a :: l)) (opts (c :: b :: l)) := by
  intro i
  match i with
  | 0 => simp [opts]
  | 1 => exact ⟨p, ha, hb⟩
  | i + 2 => simp [opts]

theorem fromOne_head {a : ℚ} {p : Int} (l : List ℚ) (ha : toInt a = .ok p) (hp : 1 ≤ p) : FromOne [0] (opts (a :: l)) := by
  intro i hi q hq
  rw [List.mem_singleton] at hi
  subst hi
  have : toInt a = .ok q := hq
  rw [ha] at this
  cases this
  exact hp

theorem fromOne_second {a : ℚ} {p : Int} (c : ℚ) (l : List ℚ) (ha : toInt a = .ok p) (hp : 1 ≤ p) : FromOne [1] (opts (c :: a :: l)) := by
  intro i hi q hq
  rw [List.mem_singleton] at hi
  subst hi
  have : toInt a = .ok q := hq
  rw [ha] at this
  cases this
  exact hp

/-- bf2's start index is 1 for period 4 and 2 for period 4.95. -/
theorem bf2_fractions_violates : ¬ (bf2 (R := ℚ)).IgnoresFractionsFromOne [0] := fun h =>
  absurd (h.1 _ _ (same_head (p := 4) (a := 4) (b := 99 / 20) [] (by decide +kernel) (by decide +kernel)) (fromOne_head _ (p := 4) (by decide +kernel) (by decide))).1
    (by decide +kernel)
/-- bf3's start index is 1 for period 3 and 2 for period 3.5. -/
theorem bf3_fractions_violates : ¬ (bf3 (R := ℚ)).IgnoresFractionsFromOne [0] := fun h =>
  absurd (h.1 _ _ (same_head (p := 3) (a := 3) (b := 7 / 2) [] (by decide +kernel) (by decide +kernel)) (fromOne_head _ (p := 3) (by decide +kernel) (by decide))).1
    (by decide +kernel)
/-- dwma's start index is 2 for period 2 and 3 for period 2.5. -/
theorem dwma_fractions_violates : ¬ (dwma (R := ℚ)).IgnoresFractionsFromOne [0] := fun h =>
  absurd (h.1 _ _ (same_head (p := 2) (a := 2) (b := 5 / 2) [] (by decide +kernel) (by decide +kernel)) (fromOne_head _ (p := 2) (by decide +kernel) (by decide))).1
    (by decide +kernel)
/-- edcf's start index is 3 for length 2 and 4 for length 2.5. -/
theorem edcf_fractions_violates : ¬ (edcf (R := ℚ)).IgnoresFractionsFromOne [0] := fun h =>
  absurd (h.1 _ _ (same_head (p := 2) (a := 2) (b := 5 / 2) [] (by decide +kernel) (by decide +kernel)) (fromOne_head _ (p := 2) (by decide +kernel) (by decide))).1
    (by decide +kernel)
/-- copp writes one value fewer when the longer period is 1.5 instead of 1. -/
theorem copp_fractions_violates : ¬ (copp (R := ℚ)).IgnoresFractionsFromOne [1] := fun h =>
  absurd ((h.1 _ _ (same_second (p := 1) (a := 1) (b := 3 / 2) 1 [1] (by decide +kernel) (by decide +kernel))
    (fromOne_second _ _ (p := 1) (by decide +kernel) (by decide))).2 [1, 2, 4, 7]) (by decide +kernel)
/-- smi reads an uninitialised value when its window is 2.5 instead of 2. -/
theorem smi_fractions_violates : ¬ (smi (R := ℚ)).IgnoresFractionsFromOne [0] := fun h =>
  absurd ((h.1 _ _ (same_head (p := 2) (a := 2) (b := 5 / 2) [1, 1] (by decide +kernel) (by decide +kernel))
    (fromOne_head _ (p := 2) (by decide +kernel) (by decide))).2 [⟨3, 1, 2⟩, ⟨5, 2, 3⟩, ⟨7, 1, 4⟩]) (by decide +kernel)
/-- rmi's batch call writes nothing for two bars when its lookback is 1.5 instead of 1. -/
theorem rmi_fractions_violates : ¬ (rmi (R := ℚ)).IgnoresFractionsFromOne [1] := fun h =>
  absurd ((h.1 _ _ (same_second (p := 1) (a := 1) (b := 3 / 2) 1 [] (by decide +kernel) (by decide +kernel))
    (fromOne_second _ _ (p := 1) (by decide +kernel) (by decide))).2 [1, 2]) (by decide +kernel)
/-- hurst fails an assertion when its period is 2.5 instead of 2. -/
theorem hurst_fractions_violates : ¬ (hurst (R := ℚ)).IgnoresFractionsFromOne [0] := fun h =>
  absurd ((h.1 _ _ (same_head (p := 2) (a := 2) (b := 5 / 2) [] (by decide +kernel) (by decide +kernel))
    (fromOne_head _ (p := 2) (by decide +kernel) (by decide))).2 [1, 1, 1, 1]) (by decide +kernel)
/-- frama writes past its output when its period is 2.5 instead of 2. -/
theorem frama_fractions_violates : ¬ (frama (R := ℚ)).IgnoresFractionsFromOne [0] := fun h =>
  absurd ((h.1 _ _ (same_head (p := 2) (a := 2) (b := 5 / 2) [2] (by decide +kernel) (by decide +kernel))
    (fromOne_head _ (p := 2) (by decide +kernel) (by decide))).2 [⟨3, 1⟩, ⟨5, 2⟩, ⟨7, 1⟩]) (by decide +kernel)

/-! The batch calls of the following ignore fractions (`_fractions_partial` above), their streams do not. -/

/-- The stream of lma divides by the period with its fraction. -/
theorem lma_fractions_violates : ¬ (lma (R := ℚ)).IgnoresFractionsFromOne [0] := fun h =>
  absurd (h.2 _ _ (same_head (p := 2) (a := 2) (b := 5 / 2) [] (by decide +kernel) (by decide +kernel))
    (fromOne_head _ (p := 2) (by decide +kernel) (by decide)) [[1, 2, 4]]) (by decide +kernel)
/-- The stream of pfe smooths with the EMA period with its fraction. -/
theorem pfe_fractions_violates : ¬ (pfe (R := ℚ)).IgnoresFractionsFromOne [1] := fun h =>
  absurd (h.2 _ _ (same_second (p := 1) (a := 1) (b := 3 / 2) 1 [] (by decide +kernel) (by decide +kernel))
    (fromOne_second _ _ (p := 1) (by decide +kernel) (by decide)) [[1, 2, 4, 3]]) (by decide +kernel)
/-- The stream of posc smooths with the EMA period with its fraction. -/
theorem posc_fractions_violates : ¬ (posc (R := ℚ)).IgnoresFractionsFromOne [1] := fun h =>
  absurd (h.2 _ _ (same_second (p := 1) (a := 1) (b := 3 / 2) 2 [] (by decide +kernel) (by decide +kernel))
    (fromOne_second _ _ (p := 1) (by decide +kernel) (by decide)) [[⟨3, 1, 2⟩, ⟨5, 2, 3⟩, ⟨7, 1, 4⟩]]) (by decide +kernel)
/-- The stream of pbands uses the period with its fraction. -/
theorem pbands_fractions_violates : ¬ (pbands (R := ℚ)).IgnoresFractionsFromOne [0] := fun h =>
  absurd (h.2 _ _ (same_head (p := 2) (a := 2) (b := 5 / 2) [] (by decide +kernel) (by decide +kernel))
    (fromOne_head _ (p := 2) (by decide +kernel) (by decide)) [[⟨3, 1, 2⟩, ⟨5, 2, 3⟩, ⟨7, 1, 4⟩]]) (by decide +kernel)
/-- The stream of rvi computes its constants from the period with its fraction. -/
theorem rvi_fractions_violates : ¬ (rvi (R := ℚ)).IgnoresFractionsFromOne [1] := fun h =>
  absurd (h.2 _ _ (same_second (p := 2) (a := 2) (b := 5 / 2) 1 [] (by decide +kernel) (by decide +kernel))
    (fromOne_second _ _ (p := 2) (by decide +kernel) (by decide)) [[1, 2, 4, 3]]) (by decide +kernel)

/-! ### A concrete pair of option vectors: 3 and 3.75 -/

example : smaBatch (opts [3]) ([1, 2, 3, 6] : List ℚ) = smaBatch (opts [15 / 4]) [1, 2, 3, 6] :=
  (sma_fractions.1 _ _ (same_head (p := 3) [] (by decide +kernel) (by decide +kernel))).2 _
example : (sma (R := ℚ)).session (opts [15 / 4]) [[1, 2], [3, 6]] = .ok (.okay, 2, [2, 11 / 3]) := by decide +kernel
example : (vwap (R := ℚ)).session (opts [5 / 2]) [hlcvs] = (vwap (R := ℚ)).session (opts [2]) [hlcvs] :=
  vwap_fractions_partial.2 _ _ (same_head (p := 2) [] (by decide +kernel) (by decide +kernel)) (fromOne_head _ (p := 2) (by decide +kernel) (by decide)) _

end Verif
