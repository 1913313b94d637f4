/-
C36 for dwma, copp and kst: the reference implementations that chain other indicators.
-/
import Verif.Model.Refs
import Verif.Props.Average
import Verif.Props.Weighted
import Verif.Props.Bars
import Verif.Props.Ema
import Verif.Core.RatInst
import Verif.Core.RealInst
import Mathlib.Tactic.IntervalCases

namespace Verif
open Spec Finset
set_option linter.unusedSectionVars false
set_option linter.unusedSimpArgs false

section Any
variable {R : Type} [Num R]

theorem dwma_ref_refuses (o : Nat → R) (h : o 0 < c! 1) : Refuses dwmaRef o := fun xs => by simp [dwmaRef, h]
theorem copp_ref_refuses (o : Nat → R) (h : o 0 < c! 1 ∨ o 1 < c! 1 ∨ o 2 < c! 1 ∨ o 1 < o 0) : Refuses coppRef o := fun xs => by
  unfold coppRef
  by_cases hb : coppBad o
  · rw [if_pos hb]; rfl
  · rw [if_neg hb, if_pos (by unfold coppBad at hb; tauto)]; rfl
theorem kst_ref_refuses (o : Nat → R) (h : ¬ (o 0 < o 1 ∧ o 1 < o 2 ∧ o 2 < o 3) ∨ ∃ k, k < 8 ∧ o k < c! 1) : Refuses kstRef o := fun xs => by
  unfold kstRef
  by_cases hb : o 0 < o 1 ∧ o 1 < o 2 ∧ o 2 < o 3
  · rw [if_neg (not_not.2 hb)]
    rcases h with h | ⟨k, hk, h⟩
    · exact absurd hb h
    · rw [if_pos]
      · rfl
      · interval_cases k <;> tauto
  · rw [if_pos hb]; rfl

/-- dwma: the outputs do not depend on how the bars are cut into calls. The hypothesis, that a number not below 1 does not truncate
below 1, holds of doubles and of every ordered field (`dwma_trunc`). -/
theorem dwma_chunks (o : Nat → R) (h : ∀ p : Int, toInt (o 0) = .ok p → o 0 < c! 1 ∨ 1 ≤ p) : (dwma (R := R)).ChunkInvariant o := by
  refine chunkInvariant_of' fun k p s hn => ?_
  refine Phases.Ordered.from (dwmaPhases_ordered k ?_) p
  have hn' : dwmaNew o = .ok (.made k p s) := hn
  unfold dwmaNew at hn'
  split at hn'
  · cases hn'
  · rename_i h1
    cases hs : dwmaStart o with
    | error e => rw [hs] at hn'; cases hn'
    | ok st =>
      cases hc : toInt (o 0) with
      | error e => rw [hs, bind_ok, hc] at hn'; cases hn'
      | ok q =>
        have := (h q hc).resolve_left h1
        rw [hs, bind_ok, hc, bind_ok] at hn'
        dsimp only at hn'
        cases hr : Ring.make (R := R) q with
        | error e => rw [hr] at hn'; cases hn'
        | ok r =>
          rw [hr, bind_ok, bind_ok] at hn'
          cases hn'
          exact this

end Any

section Field
variable {R : Type} [Field R] [LinearOrder R] [IsStrictOrderedRing R] [CMath R]

/-! ### dwma -/

theorem dwma_trunc [LawfulTrunc R] [LawfulRound R] (v : R) (p : Int) (hc : toInt v = .ok p) : v < c! 1 ∨ 1 ≤ p := by
  by_contra hn
  push Not at hn
  push_cast at hn
  have h := LawfulRound.trunc_nonneg v (by linarith)
  rw [(toInt_trunc hc).1] at h
  have : ((1 : Int) : R) < ((p + 1 : Int) : R) := by push_cast; linarith
  have := Int.cast_lt.1 this
  omega

/-- dwma: the reference implementation, `ti_wma` twice, agrees with the batch call. Partial: whole periods, not more than one bar
short of a period, and the weight total fits `int`; see `dwma_ref_violates` and `dwma_ref_short_violates`. -/
theorem dwma_ref_eq_batch_partial [LawfulTrunc R] [LawfulRound R] (o : Nat → R) (p : Nat) (ho : o 0 = ((p : Int) : R))
    (hp : 1 ≤ p) (hb : p * (p + 1) ≤ 2147483647) (xs : List R) (hx1 : p - 1 ≤ xs.length) (hx2 : xs.length ≤ 2147483647) :
    dwmaRef o xs = dwmaBatch o xs := by
  obtain ⟨x, hx⟩ := exists_pre xs
  have hp2 : p ≤ 65536 := by nlinarith
  have hc : toInt (o 0) = .ok (p : Int) := toInt_cast' ho (by omega)
  have hw : Computes wmaBatch o (p - 1) (fun x => wma p x) := (wma_run o p hc hp hb).congr fun x j => wmaVal_eq p hp x j
  have hv : toInt (((xs.length : Int) : R) - o 0 + c! 1) = .ok ((xs.length - (p - 1) : Nat) : Int) := by
    refine toInt_cast' ?_ (by omega)
    rw [ho]; push_cast [Nat.cast_sub hx1, Nat.cast_sub hp]; ring
  rw [hx, dwma_value_partial o p ho hp (by omega) x xs.length]
  unfold dwmaRef
  rw [if_neg (not_cast_lt_one ho hp), length_pre]
  dsimp only
  rw [vecSize_ok hv, bind_ok, hw x xs.length, bind_ok, filled_exact _ _ (by simp), bind_ok, hv,
    bind_ok]
  have ht : (pre (wma p x) (xs.length - (p - 1))).take (((xs.length - (p - 1) : Nat) : Int)).toNat = pre (wma p x) (xs.length - (p - 1)) :=
    List.take_of_length_le (by simp)
  show (wmaBatch o (List.take _ (pre (wma p x) _)) >>= _) = _
  rw [ht, hw _ _, bind_ok]
  simp only [pure_eq, Except.ok.injEq, Prod.mk.injEq, true_and]
  congr 1
  omega

/-- A fractional period makes `ti_dwma_ref` write past the vector of its first average, whatever the prices. -/
theorem dwma_ref_violates [LawfulTrunc R] [LawfulRound R] (o : Nat → R) (p : Nat) (h1 : (p : R) < o 0) (h2 : o 0 < (p : R) + 1)
    (hp : 1 ≤ p) (hb : p * (p + 1) ≤ 2147483647) (xs : List R) (hx1 : p < xs.length) (hx2 : xs.length ≤ 2147483647) :
    dwmaRef o xs = .error .oobWrite := by
  obtain ⟨x, hx⟩ := exists_pre xs
  have hp2 : p ≤ 65536 := by nlinarith
  have hp' : (1 : R) ≤ p := by exact_mod_cast hp
  have hc : toInt (o 0) = .ok (p : Int) := toInt_of_within h1.le h2 (by omega)
  have hw : Computes wmaBatch o (p - 1) (fun x => wma p x) := (wma_run o p hc hp hb).congr fun x j => wmaVal_eq p hp x j
  have hv : toInt (((xs.length : Int) : R) - o 0 + c! 1) = .ok ((xs.length - p : Nat) : Int) := by
    refine toInt_of_within ?_ ?_ (by omega) <;> push_cast [Nat.cast_sub hx1.le] <;> linarith
  unfold dwmaRef
  rw [if_neg (by push_cast; linarith)]
  dsimp only
  rw [vecSize_ok hv, bind_ok, hx, hw x xs.length, bind_ok]
  unfold filled
  rw [if_neg (by simp; omega), bind_err]; rfl

/-- A series more than one bar short of the period makes `ti_dwma_ref` ask for a vector of negative size; the batch call writes
nothing and succeeds. -/
theorem dwma_ref_short_violates [LawfulTrunc R] [LawfulRound R] (o : Nat → R) (p : Nat) (ho : o 0 = ((p : Int) : R))
    (hp : 1 ≤ p) (hb : p ≤ 1073741824) (xs : List R) (hx1 : xs.length + 1 < p) :
    dwmaRef o xs = .error .intRange ∧ dwmaBatch o xs = .ok (.okay, []) := by
  obtain ⟨x, hx⟩ := exists_pre xs
  have hv : toInt (((xs.length : Int) : R) - o 0 + c! 1) = .ok (xs.length - p + 1 : Int) := by
    refine toInt_cast' ?_ (by omega)
    rw [ho]; push_cast; rfl
  refine ⟨?_, ?_⟩
  · unfold dwmaRef vecSize
    rw [if_neg (not_cast_lt_one ho hp)]
    dsimp only
    rw [hv, bind_ok, if_pos (by omega), bind_err]; rfl
  · rw [hx, dwma_value_partial o p ho hp hb x xs.length, show xs.length - 2 * (p - 1) = 0 by omega]; rfl

/-! ### copp -/

/-- copp: the reference implementation, two `ti_roc` and a `ti_wma`, agrees with the batch call. Partial: whole-number options,
nonzero prices and a weight total that fits `int`; see `copp_ref_ne_batch`. -/
theorem copp_ref_eq_batch_partial [LawfulTrunc R] [LawfulRound R] (o : Nat → R) (s l w : Nat) (h0 : o 0 = ((s : Int) : R))
    (h1 : o 1 = ((l : Int) : R)) (h2 : o 2 = ((w : Int) : R)) (hs : 1 ≤ s) (hl : s ≤ l) (hw : 1 ≤ w) (hb : l + w ≤ 2147483646)
    (hb2 : w * (w + 1) ≤ 2147483647) (xs : List R) (hx0 : ∀ v ∈ xs, v ≠ 0) : coppRef o xs = coppBatch o xs := by
  obtain ⟨x, hx⟩ := exists_pre xs
  have hne : ∀ i, i < xs.length → x i ≠ 0 := fun i hi => hx0 _ (by rw [hx]; exact List.mem_map.2 ⟨i, List.mem_range.2 hi, rfl⟩)
  generalize hN : xs.length = N at *
  subst hx
  have c0 : toInt (o 0) = .ok (s : Int) := toInt_cast' h0 (by omega)
  have c1 : toInt (o 1) = .ok (l : Int) := toInt_cast' h1 (by omega)
  have c2 : toInt (o 2) = .ok (w : Int) := toInt_cast' h2 (by omega)
  rw [copp_value_partial o s l w h0 h1 h2 hs hl hw hb x N]
  unfold coppRef
  have hbad : ¬ coppBad o := by
    rintro (h | h | h)
    exacts [not_cast_lt_one h0 hs h, not_cast_lt_one h1 (by omega) h, not_cast_lt_one h2 hw h]
  rw [if_neg hbad, if_neg (by rw [h0, h1]; simp; exact_mod_cast hl), coppStart_ok o l w h1 h2 hw (by omega), bind_ok, length_pre]
  by_cases hlen : N < l + (w - 1)
  · rw [if_pos (by omega), show N - (l + (w - 1)) = 0 by omega]; rfl
  rw [if_neg (by omega)]
  simp only [startPeriod, c0, c1, bind_ok]
  rw [roc_value (fun _ => o 0) s c0 hs x N, bind_ok, roc_value (fun _ => o 1) l c1 (by omega) x N, bind_ok]
  refine forUp_bind 0 (N - l) (fun i => pre (fun m => meanChange s l x (m + l)) i) rfl (by omega) rfl (by omega) ?_ ?_
  · intro i _ hi
    have e : rd (pre (fun j => if x j = 0 then 0 else (x (j + s) - x j) / x j) (N - s)) ((i : Int) + ((N : Int) - s - ((N : Int) - l))) =
        .ok (if x (i + (l - s)) = 0 then 0 else (x (i + (l - s) + s) - x (i + (l - s))) / x (i + (l - s))) :=
      rd_at (i + (l - s)) (by omega) (by omega)
    rw [rd_at i rfl (by omega), bind_ok, e, bind_ok, wr_pre _ _ _ _ (by omega)]
    have n1 : x (i + l - s) ≠ 0 := hne _ (by omega)
    have n2 : x i ≠ 0 := hne _ (by omega)
    dsimp only
    rw [if_neg n2, show i + (l - s) + s = i + l by omega, show i + (l - s) = i + l - s by omega, if_neg n1]
    unfold meanChange
    rw [show i + l - l = i by omega, if_neg (by simp [n1, n2])]
    push_cast
    ring
  · have hwm : Computes wmaBatch (fun _ => o 2) (w - 1) (fun x => wma w x) :=
      (wma_run (fun _ => o 2) w c2 hw hb2).congr fun x j => wmaVal_eq w hw x j
    rw [hwm _ _, bind_ok, show N - l - (w - 1) = N - (l + (w - 1)) by omega]
    rfl

/-! ### kst -/

theorem kstRefLine_run (o : Nat → R) (i r m : Nat) (hr : toInt (o i) = .ok (r : Int)) (hm : toInt (o (4 + i)) = .ok (m : Int))
    (h1 : 1 ≤ r) (h2 : 1 ≤ m) (x : Nat → R) (N : Nat) (hx : ∀ k, k < N → x k ≠ 0) :
    kstRefLine o (pre x N) i = .ok ((N : Int) - r, pre (ema (emaCoef m) (change r x)) (N - r)) := by
  have e : pre (fun j => if x j = 0 then 0 else (x (j + r) - x j) / x j) (N - r) = pre (change r x) (N - r) := by
    refine List.map_congr_left fun j hj => ?_
    have : j < N - r := List.mem_range.1 hj
    rw [if_neg (hx j (by omega))]; rfl
  unfold kstRefLine
  simp only [startPeriod, hr, bind_ok, length_pre]
  rw [roc_value (fun _ => o i) r hr h1 x N, bind_ok]
  dsimp only
  rw [e, ema_value (fun _ => o (4 + i)) m hm h2 (change r x) (N - r), bind_ok, emaStart, bind_ok]
  simp

/-- What `ti_kst_ref` does on `N` nonzero prices, for every `N`. -/
theorem kst_ref_run (o : Nat → R) (r1 r2 r3 r4 m1 m2 m3 m4 : Nat)
    (h1 : toInt (o 0) = .ok (r1 : Int)) (h2 : toInt (o 1) = .ok (r2 : Int)) (h3 : toInt (o 2) = .ok (r3 : Int))
    (h4 : toInt (o 3) = .ok (r4 : Int)) (h5 : toInt (o 4) = .ok (m1 : Int)) (h6 : toInt (o 5) = .ok (m2 : Int))
    (h7 : toInt (o 6) = .ok (m3 : Int)) (h8 : toInt (o 7) = .ok (m4 : Int)) (hr : 1 ≤ r1 ∧ r1 < r2 ∧ r2 < r3 ∧ r3 < r4)
    (ho : o 0 < o 1 ∧ o 1 < o 2 ∧ o 2 < o 3) (hm : 1 ≤ m1 ∧ 1 ≤ m2 ∧ 1 ≤ m3 ∧ 1 ≤ m4)
    (hn : ∀ k, k < 8 → 1 ≤ o k) [LawfulTrunc R] [LawfulRound R] (x : Nat → R) (N : Nat) (hx : ∀ k, k < N → x k ≠ 0) :
    kstRef o (pre x N) = if N < r4 then .error .assertFail else .ok (.okay, pre (fun j =>
      (⟨kst r1 r2 r3 r4 m1 m2 m3 m4 x j, ema (1 / 5) (kst r1 r2 r3 r4 m1 m2 m3 m4 x) j⟩ : Kst R)) (N - r4)) := by
  have hn' : ∀ k, k < 8 → ¬ o k < c! 1 := fun k hk h => by have := hn k hk; simp at h; linarith
  unfold kstRef
  rw [if_neg (not_not.2 ho), if_neg ?_]
  swap
  · rintro (h | h | h | h | h | h | h | h)
    exacts [hn' 0 (by omega) h, hn' 1 (by omega) h, hn' 2 (by omega) h, hn' 3 (by omega) h, hn' 4 (by omega) h, hn' 5 (by omega) h,
      hn' 6 (by omega) h, hn' 7 (by omega) h]
  rw [kstRefLine_run o 0 r1 m1 h1 h5 (by omega) (by omega) x N hx, bind_ok, kstRefLine_run o 1 r2 m2 h2 h6 (by omega) (by omega) x N hx,
    bind_ok, kstRefLine_run o 2 r3 m3 h3 h7 (by omega) (by omega) x N hx, bind_ok,
    kstRefLine_run o 3 r4 m4 h4 h8 (by omega) (by omega) x N hx, bind_ok, kstStart, h4, bind_ok, length_pre]
  dsimp only
  rw [show min (min (min ((N : Int) - r1) ((N : Int) - r2)) ((N : Int) - r3)) ((N : Int) - r4) = (N : Int) - r4 by omega]
  have c9 : toInt (c! 9 : R) = .ok ((9 : Nat) : Int) := toInt_cast' rfl (by omega)
  by_cases hN : N < r4
  · rw [if_pos hN, forUp_empty (by omega), bind_ok]
    have := ema_value (fun _ => (c! 9 : R)) 9 c9 (by omega) x 0
    rw [show ([] : List R) = pre x 0 from rfl, this, bind_ok]
    have : asrt (decide (((pre x 0).length : Int) = (N : Int) - r4)) = .error .assertFail := by
      unfold asrt; simp; omega
    rw [this, bind_err]; rfl
  · rw [if_neg hN]
    refine forUp_bind 0 (N - r4) (fun i => pre (kst r1 r2 r3 r4 m1 m2 m3 m4 x) i) rfl (by omega) rfl (by omega) ?_ ?_
    · intro i _ hi
      rw [rd_at (r4 + i - r1) (by omega) (by omega), bind_ok, rd_at (r4 + i - r2) (by omega) (by omega), bind_ok,
        rd_at (r4 + i - r3) (by omega) (by omega), bind_ok, rd_at (r4 + i - r4) (by omega) (by omega), bind_ok, wr_pre _ _ _ _ (by omega)]
      unfold kstMix kst
      push_cast
      ring
    · rw [ema_value (fun _ => (c! 9 : R)) 9 c9 (by omega) _ _, bind_ok]
      have : asrt (decide (((pre (kst r1 r2 r3 r4 m1 m2 m3 m4 x) (N - r4)).length : Int) = (N : Int) - r4)) = .ok () := by
        unfold asrt; rw [decide_eq_true (by simp; omega)]; rfl
      rw [this, bind_ok, pure_eq]
      congr 2
      unfold pre
      rw [List.zipWith_map, Nat.sub_zero, List.zipWith_self]
      refine List.map_congr_left fun j _ => ?_
      have : (emaCoef 9 : R) = 1 / 5 := by unfold emaCoef; norm_num
      rw [this]

/-- kst: the reference implementation, `ti_roc` and `ti_ema`, agrees with the batch call on series long enough for one output.
Partial: nonzero prices, increasing truncated lags and no `int` overflow; see `kst_ref_short_violates` and `kst_ref_ne_batch`. -/
theorem kst_ref_eq_batch_partial [LawfulTrunc R] [LawfulRound R] (o : Nat → R) (r1 r2 r3 r4 m1 m2 m3 m4 : Nat)
    (h1 : toInt (o 0) = .ok (r1 : Int)) (h2 : toInt (o 1) = .ok (r2 : Int)) (h3 : toInt (o 2) = .ok (r3 : Int))
    (h4 : toInt (o 3) = .ok (r4 : Int)) (h5 : toInt (o 4) = .ok (m1 : Int)) (h6 : toInt (o 5) = .ok (m2 : Int))
    (h7 : toInt (o 6) = .ok (m3 : Int)) (h8 : toInt (o 7) = .ok (m4 : Int)) (hr : 1 ≤ r1 ∧ r1 < r2 ∧ r2 < r3 ∧ r3 < r4)
    (ho : o 0 < o 1 ∧ o 1 < o 2 ∧ o 2 < o 3) (hm : 1 ≤ m1 ∧ 1 ≤ m2 ∧ 1 ≤ m3 ∧ 1 ≤ m4)
    (hn : ∀ k, k < 8 → 1 ≤ o k) (hb : r4 < 2147483647) (hmb : ∀ m ∈ [m1, m2, m3, m4], m < 2147483647)
    (xs : List R) (hx0 : ∀ v ∈ xs, v ≠ 0) (hN : r4 < xs.length) : kstRef o xs = kstBatch o xs := by
  obtain ⟨x, hx⟩ := exists_pre xs
  have hne : ∀ i, i < xs.length → x i ≠ 0 := fun i hi => hx0 _ (by rw [hx]; exact List.mem_map.2 ⟨i, List.mem_range.2 hi, rfl⟩)
  rw [hx, kst_ref_run o r1 r2 r3 r4 m1 m2 m3 m4 h1 h2 h3 h4 h5 h6 h7 h8 hr ho hm hn x _ hne, if_neg (by omega),
    kst_value_partial o r1 r2 r3 r4 m1 m2 m3 m4 h1 h2 h3 h4 h5 h6 h7 h8 hr.2 hn hb hmb x _ hN]

/-- A series shorter than the longest lag makes `ti_kst_ref` fail its own assertion. -/
theorem kst_ref_short_violates [LawfulTrunc R] [LawfulRound R] (o : Nat → R) (r1 r2 r3 r4 m1 m2 m3 m4 : Nat)
    (h1 : toInt (o 0) = .ok (r1 : Int)) (h2 : toInt (o 1) = .ok (r2 : Int)) (h3 : toInt (o 2) = .ok (r3 : Int))
    (h4 : toInt (o 3) = .ok (r4 : Int)) (h5 : toInt (o 4) = .ok (m1 : Int)) (h6 : toInt (o 5) = .ok (m2 : Int))
    (h7 : toInt (o 6) = .ok (m3 : Int)) (h8 : toInt (o 7) = .ok (m4 : Int)) (hr : 1 ≤ r1 ∧ r1 < r2 ∧ r2 < r3 ∧ r3 < r4)
    (ho : o 0 < o 1 ∧ o 1 < o 2 ∧ o 2 < o 3) (hm : 1 ≤ m1 ∧ 1 ≤ m2 ∧ 1 ≤ m3 ∧ 1 ≤ m4)
    (hn : ∀ k, k < 8 → 1 ≤ o k) (xs : List R) (hx0 : ∀ v ∈ xs, v ≠ 0) (hN : xs.length < r4) : kstRef o xs = .error .assertFail := by
  obtain ⟨x, hx⟩ := exists_pre xs
  have hne : ∀ i, i < xs.length → x i ≠ 0 := fun i hi => hx0 _ (by rw [hx]; exact List.mem_map.2 ⟨i, List.mem_range.2 hi, rfl⟩)
  rw [hx, kst_ref_run o r1 r2 r3 r4 m1 m2 m3 m4 h1 h2 h3 h4 h5 h6 h7 h8 hr ho hm hn x _ hne, if_pos hN]

end Field

/-- copp with a price of 0 in the short lag only: the batch call reports no change, the reference implementation half of the
long one. -/
theorem copp_ref_ne_batch : coppRef (opts [1, 2, 1]) [1, 0, 3] = .ok (.okay, [100]) ∧
    coppBatch (opts [1, 2, 1]) [1, 0, 3] = .ok (.okay, [0]) := by decide +kernel
/-- kst with lags that differ only in their fractions: the batch call refuses them, the reference implementation computes. -/
theorem kst_ref_ne_batch : kstRef (opts [1, 3/2, 2, 3, 1, 1, 1, 1]) [1, 2, 4, 8] = .ok (.okay, [⟨4, 4⟩]) ∧
    kstBatch (opts [1, 3/2, 2, 3, 1, 1, 1, 1]) [1, 2, 4, 8] = .ok (.invalidOption, []) := by decide +kernel

/-! ### Concrete cases -/

example : dwmaRef (opts [2]) [1, 2, 3, 6] = dwmaBatch (opts [2]) [1, 2, 3, 6] := by decide +kernel
example : dwmaRef (opts [2]) [1, 2, 3, 6] = .ok (.okay, [7/3, 38/9]) := by decide +kernel
example : dwmaRef (opts [5/2]) [1, 2, 3, 6] = .error .oobWrite := by decide +kernel
example : dwmaRef (opts [6]) [1, 2, 3, 6] = .error .intRange := by decide +kernel
example : coppRef (opts [1, 2, 2]) [1, 2, 4, 8] = .ok (.okay, [200]) := by decide +kernel
example : kstRef (opts [1, 2, 3, 4, 1, 1, 1, 1]) [1, 2, 4, 8, 16, 32] = .ok (.okay, [⟨44/5, 44/5⟩, ⟨44/5, 44/5⟩]) := by decide +kernel
example : kstRef (opts [1, 2, 3, 4, 1, 1, 1, 1]) [1, 2, 4] = .error .assertFail := by decide +kernel

end Verif
