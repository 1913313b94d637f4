/-
C49 (ahma, ehma, idwma, lma, shmma) and C50 (emsd, edcf): values, ranges, contracts, streams and reference implementations.
-/
import Verif.Proof.Average
import Verif.Proof.SmoothField
import Verif.Props.Smooth
import Verif.Props.Stats
import Verif.Props.Sum
import Verif.Props.Window
import Verif.Props.Trend
import Verif.Props.Flow
import Verif.Spec.Average
import Verif.Core.RatInst
import Verif.Core.RealInst
import Mathlib.Tactic.LinearCombination

namespace Verif
open Spec Finset
set_option linter.unusedSectionVars false
set_option linter.unusedSimpArgs false

section Any
variable {R : Type} [Num R]

/-! ### Any arithmetic -/

theorem ahma_contract (o : Nat → R) (p : Nat) (hc : toInt (o 0) = .ok (p : Int)) (hp : 1 ≤ p) :
    Contract ahmaStart ahmaBatch o 0 := (ahma_run o p hc hp).contract rfl
theorem ahma_refuses (o : Nat → R) (p : Int) (hc : toInt (o 0) = .ok p) (hp : p < 1) :
    Refuses ahmaBatch o ∧ (ahma (R := R)).NewRefuses o :=
  ⟨fun xs => by simp [ahmaBatch, hc, hp], by simp [Indicator.NewRefuses, ahma, ahmaNew, hc, hp]⟩
theorem ahma_ref_refuses (o : Nat → R) (h : o 0 < c! 1) : Refuses ahmaRef o := fun xs => by simp [ahmaRef, h]
theorem ahma_chunks (o : Nat → R) : (ahma (R := R)).ChunkInvariant o := chunkInvariant_of ahmaPhases_ordered o
/-- ahma in any arithmetic: the stream writes bit for bit what the batch call writes. Partial: `period + 1` overflows for the
largest period (`ahma_stream_overflow`). -/
theorem ahma_stream_eq_batch_partial (o : Nat → R) (p : Nat) (hc : toInt (o 0) = .ok (p : Int)) (hp : 1 ≤ p)
    (hb : p < 2147483647) : (ahma (R := R)).StreamEqBatch o 0 :=
  streamEqBatch_of (ahma_run o p hc hp) (ahma_stream_run o p hc hp hb)
/-- The largest period: `period + 1`, the size of the stream's ring, is not an `int`. -/
theorem ahma_stream_overflow (o : Nat → R) (hc : toInt (o 0) = .ok 2147483647) :
    (ahma (R := R)).new o = .error .intRange := by
  have hb : i32 (2147483647 + 1) = .error .intRange := by unfold i32; rw [if_neg (by omega)]
  show ahmaNew o = _
  unfold ahmaNew ahmaStart
  rw [hc, bind_ok, if_neg (by omega), bind_ok, hb]; rfl

theorem ehma_contract (o : Nat → R) (p : Nat) (hc : toInt (o 0) = .ok (p : Int)) (hp : 1 ≤ p) :
    Contract ehmaStart ehmaBatch o 0 := (ehma_run o p hc hp).contract rfl
theorem ehma_refuses (o : Nat → R) (p : Int) (hc : toInt (o 0) = .ok p) (hp : p < 1) :
    Refuses ehmaBatch o ∧ Refuses ehmaRef o ∧ (ehma (R := R)).NewRefuses o :=
  ⟨fun xs => by simp [ehmaBatch, hc, hp], fun xs => by simp [ehmaRef, hc, hp], by
    simp [Indicator.NewRefuses, ehma, ehmaNew, hc, hp]⟩
theorem ehma_chunks (o : Nat → R) : (ehma (R := R)).ChunkInvariant o := chunkInvariant_of ehmaPhases_ordered o
/-- The largest period: the stream's divisor `period + 1` is not an `int`. -/
theorem ehma_stream_overflow (o : Nat → R) (hc : toInt (o 0) = .ok 2147483647) :
    (ehma (R := R)).new o = .error .intRange := by
  have hb : i32 (2147483647 + 1) = .error .intRange := by unfold i32; rw [if_neg (by omega)]
  show ehmaNew o = _
  unfold ehmaNew ehmaStart
  rw [hc, bind_ok, if_neg (by omega), bind_ok, hb]; rfl

theorem idwma_refuses (o : Nat → R) (p : Int) (hc : toInt (o 0) = .ok p) (hp : p < 1 ∨ o 1 < c! 1 ∨ c! 2 < o 1) :
    Refuses idwmaBatch o ∧ (idwma (R := R)).NewRefuses o := by
  by_cases h : p < 1
  · exact ⟨fun xs => by simp [idwmaBatch, hc, h], by simp [Indicator.NewRefuses, idwma, idwmaNew, hc, h]⟩
  · have hb : idwmaBad o := hp.resolve_left h
    exact ⟨fun xs => by simp [idwmaBatch, hc, h, hb], by simp [Indicator.NewRefuses, idwma, idwmaNew, hc, h, hb]⟩
theorem idwma_ref_refuses (o : Nat → R) (h : o 0 < c! 1 ∨ o 1 < c! 1 ∨ c! 2 < o 1) : Refuses idwmaRef o := by
  intro xs
  unfold idwmaRef
  by_cases h0 : o 0 < c! 1
  · rw [if_pos h0]; rfl
  · rw [if_neg h0, if_pos (show idwmaBad o from h.resolve_left h0)]; rfl
theorem idwma_chunks (o : Nat → R) : (idwma (R := R)).ChunkInvariant o := chunkInvariant_of idwmaPhases_ordered o

theorem lma_refuses (o : Nat → R) (p : Int) (hc : toInt (o 0) = .ok p) (hp : p < 1) : Refuses lmaBatch o :=
  fun xs => by simp [lmaBatch, hc, hp]
/-- The stream and the reference compare the period before truncating it. -/
theorem lma_stream_refuses (o : Nat → R) (h : o 0 < c! 1) : Refuses lmaRef o ∧ (lma (R := R)).NewRefuses o :=
  ⟨fun xs => by simp [lmaRef, h], by simp [Indicator.NewRefuses, lma, lmaNew, h]⟩
theorem lma_chunks (o : Nat → R) : (lma (R := R)).ChunkInvariant o := chunkInvariant_of lmaPhases_ordered o

theorem shmma_refuses (o : Nat → R) (p : Int) (hc : toInt (o 0) = .ok p) (hp : p < 1) : Refuses shmmaBatch o :=
  fun xs => by simp [shmmaBatch, hc, hp]
theorem shmma_stream_refuses (o : Nat → R) (h : o 0 < c! 1) : Refuses shmmaRef o ∧ (shmma (R := R)).NewRefuses o :=
  ⟨fun xs => by simp [shmmaRef, h], by simp [Indicator.NewRefuses, shmma, shmmaNew, h]⟩
theorem shmma_chunks (o : Nat → R) : (shmma (R := R)).ChunkInvariant o := chunkInvariant_of shmmaPhases_ordered o

theorem emsd_refuses (o : Nat → R) (p m : Int) (hc : toInt (o 0) = .ok p) (h1 : toInt (o 1) = .ok m) (h : p < 1 ∨ m < 1) :
    Refuses emsdBatch o ∧ (emsd (R := R)).NewRefuses o := by
  by_cases hp : p < 1
  · exact ⟨fun xs => by simp [emsdBatch, hc, h1, hp], by simp [Indicator.NewRefuses, emsd, emsdNew, hc, h1, hp]⟩
  · have hm := h.resolve_left hp
    exact ⟨fun xs => by simp [emsdBatch, hc, h1, hp, hm], by simp [Indicator.NewRefuses, emsd, emsdNew, hc, h1, hp, hm]⟩
theorem emsd_ref_refuses (o : Nat → R) (h : o 0 < c! 1 ∨ o 1 < c! 1) : Refuses emsdRef o := by
  intro xs
  unfold emsdRef
  by_cases h0 : o 0 < c! 1
  · rw [if_pos h0]; rfl
  · rw [if_neg h0, if_pos (h.resolve_left h0)]; rfl
theorem emsd_chunks (o : Nat → R) : (emsd (R := R)).ChunkInvariant o := chunkInvariant_of emsdPhases_ordered o
/-- Partial: `ma_period + 1` overflows for the largest one (`emsd_overflow`). -/
theorem emsd_contract_partial (o : Nat → R) (p m : Nat) (hc : toInt (o 0) = .ok (p : Int)) (h1 : toInt (o 1) = .ok (m : Int))
    (hp : 1 ≤ p) (hm : 1 ≤ m) (hb : m < 2147483647) : Contract emsdStart emsdBatch o (p - 1) :=
  (emsd_run o p m hc h1 hp hm hb).contract (emsdStart_ok hc h1 hp)

theorem edcf_refuses (o : Nat → R) (h : o 0 < c! 1) : Refuses edcfBatch o ∧ (edcf (R := R)).NewRefuses o :=
  ⟨fun xs => by simp [edcfBatch, h], by simp [Indicator.NewRefuses, edcf, edcfNew, h]⟩
theorem edcf_chunks (o : Nat → R) : (edcf (R := R)).ChunkInvariant o := chunkInvariant_of edcfPhases_ordered o

/-- The largest averaging period overflows as soon as there are more than `period` bars. -/
theorem emsd_overflow (o : Nat → R) (p : Nat) (hc : toInt (o 0) = .ok (p : Int)) (h1 : toInt (o 1) = .ok 2147483647)
    (hp : 1 ≤ p) (xs : List R) (hx : p < xs.length) : emsdBatch o xs = .error .intRange := by
  obtain ⟨x, hxs⟩ := exists_pre xs
  generalize xs.length = N at hx hxs
  subst hxs
  have hb : i32 (2147483647 + 1) = .error .intRange := by unfold i32; rw [if_neg (by omega)]
  generalize hdv : (fun s : R => s / ((p : Int) : R)) = dv
  have hd : ∀ s : R, s / ((p : Int) : R) = dv s := fun s => by rw [← hdv]
  have f : R → R → R := fun a _ => a
  unfold emsdBatch
  simp only [hc, h1, bind_ok, emsdStart_ok hc h1 hp, length_pre, hb, hd]
  rw [if_neg (by omega), if_neg (by omega)]
  refine forUp_bind 0 (p - 1) (fun i => emsdTraj p dv f x i) rfl (by unfold upto; omega) ?_ (by omega) ?_ ?_
  · unfold emsdTraj
    rw [if_pos (by omega)]
    rfl
  · intro i _ h2
    rw [rd_at i rfl (by omega), bind_ok, pure_eq, emsd_warm (by omega)]
  refine forUp_bind (p - 1) p
    (fun i => (emsdTraj p dv f x i, pre (fun j => CMath.sqrt (emsdVar p dv x j)) (i - (p - 1)))) (by unfold upto; omega)
    (by unfold upto; omega) (by simp) (by omega) ?_ ?_
  · intro i h2 h3
    obtain rfl : i = p - 1 := by omega
    simp only []
    have hv : dv ((emsdTraj p dv f x (p - 1)).add (x (p - 1))).sum2 -
        CMath.pow (dv ((emsdTraj p dv f x (p - 1)).add (x (p - 1))).sum) (c! 2) = emsdVar p dv x 0 := by
      unfold emsdTraj EmsdSt.add emsdVar
      simp only [Nat.zero_add, if_true]
    rw [rd_at (p - 1) rfl (by omega), bind_ok]
    simp only [hv]
    rw [show p - 1 + 1 - (p - 1) = 0 + 1 by omega, show p - 1 - (p - 1) = 0 by omega,
      wr_pre _ (fun j => CMath.sqrt (emsdVar p dv x j)) 0 _ (by omega) rfl, bind_ok,
      rd_at 0 (by omega) (by omega), bind_ok, pure_eq]
    have := emsd_first hp (dv := dv) (f := f) (x := x)
    rw [show p - 1 + 1 = p by omega]
    rw [this]
  refine bind_err ?_
  refine forUp_err p p (fun i => (emsdTraj p dv f x i, pre (fun j => CMath.sqrt (emsdVar p dv x j)) (i - (p - 1))))
    (by unfold upto; omega) rfl le_rfl (by omega) (fun i a b => by omega) ?_
  simp only []
  have he : getV ((emsdTraj p dv f x p).add (x p)).ema = .ok (emsdE f (emsdVar p dv x) (p - p)) := by
    unfold emsdTraj EmsdSt.add
    simp only []
    rw [if_neg (by omega)]
    rfl
  rw [rd_at p rfl (by omega), bind_ok]
  simp only [he, bind_ok]
  rfl

section Exact
variable [IntExact R]

theorem idwma_contract (o : Nat → R) (p : Nat) (hc : toInt (o 0) = .ok (p : Int)) (hp : 1 ≤ p) (h1 : ¬ o 1 < c! 1)
    (h2 : ¬ c! 2 < o 1) : Contract idwmaStart idwmaBatch o (p - 1) :=
  (idwma_run o p hc hp (fun h => h.elim h1 h2) (toInt_sub_one hc hp)).contract (toInt_sub_one hc hp)
/-- idwma in any arithmetic with exact integers: the stream writes bit for bit what the batch call writes. -/
theorem idwma_stream_eq_batch (o : Nat → R) (p : Nat) (hc : toInt (o 0) = .ok (p : Int)) (hp : 1 ≤ p) (h1 : ¬ o 1 < c! 1)
    (h2 : ¬ c! 2 < o 1) : (idwma (R := R)).StreamEqBatch o (p - 1) :=
  streamEqBatch_of (idwma_run o p hc hp (fun h => h.elim h1 h2) (toInt_sub_one hc hp))
    (idwma_stream_run o p hc hp (fun h => h.elim h1 h2) (toInt_sub_one hc hp))
theorem lma_contract (o : Nat → R) (p : Nat) (hc : toInt (o 0) = .ok (p : Int)) (hp : 1 ≤ p) :
    Contract lmaStart lmaBatch o (p - 1) := (lma_run o p hc hp (toInt_sub_one hc hp)).contract (toInt_sub_one hc hp)
/-- Partial: from period 46341 on, `(period + 1) * period` overflows (`shmma_overflow`). -/
theorem shmma_contract_partial (o : Nat → R) (p : Nat) (hc : toInt (o 0) = .ok (p : Int)) (hp : 1 ≤ p)
    (hb : (p + 1) * p ≤ 2147483647) : Contract shmmaStart shmmaBatch o (p - 1) :=
  (shmma_run o p hc hp hb (toInt_sub_one hc hp)).contract (toInt_sub_one hc hp)
/-- shmma in any arithmetic with exact integers: the stream writes bit for bit what the batch call writes. Partial as above. -/
theorem shmma_stream_eq_batch_partial (o : Nat → R) (p : Nat) (hc : toInt (o 0) = .ok (p : Int)) (hp : 1 ≤ p)
    (hb : (p + 1) * p ≤ 2147483647) : (shmma (R := R)).StreamEqBatch o (p - 1) :=
  streamEqBatch_of (shmma_run o p hc hp hb (toInt_sub_one hc hp))
    (shmma_stream_run o p hc hp (not_lt_one hc hp) hb (toInt_sub_one hc hp))

/-- With a longer period, any input as long as the period overflows an `int`. -/
theorem shmma_overflow (o : Nat → R) (p : Nat) (hc : toInt (o 0) = .ok (p : Int)) (hb : 2147483647 < (p + 1) * p)
    (xs : List R) (hx : p ≤ xs.length) : shmmaBatch o xs = .error .intRange := by
  obtain ⟨x, hxs⟩ := exists_pre xs
  generalize xs.length = N at hx hxs
  subst hxs
  have hp : 1 ≤ p := by
    by_contra h
    obtain rfl : p = 0 := by omega
    simp at hb
  have hr := toInt_range hc
  unfold shmmaBatch
  simp only [hc, bind_ok, shmmaStart, toInt_sub_one hc hp, length_pre, pure_eq]
  rw [if_neg (by omega)]
  have hout : ∀ T S : R, shmmaOut (p : Int) T S = .error .intRange := by
    intro T S
    have hb' : (2147483647 : Int) < ((p : Int) + 1) * p := by exact_mod_cast hb
    unfold shmmaOut
    by_cases h : (p : Int) + 1 ≤ 2147483647
    · rw [i32_ok _ (by omega) h, bind_ok]
      refine bind_err ?_
      unfold i32; rw [if_neg (by omega)]
    · refine bind_err ?_
      unfold i32; rw [if_neg (by omega)]
  have hweight : ∀ i : Nat, i < p - 1 → (shmmaWeight (p : Int) (i : Int) : M R) = .error .intRange ∨
      (shmmaWeight (p : Int) (i : Int) : M R) = .ok ((((-(p : Int) + 2 * (i : Int) : Int) : R) + c! 1) / c! 2) := by
    intro i hi
    unfold shmmaWeight
    by_cases h : 2 * (i : Int) ≤ 2147483647
    · right
      rw [i32_ok _ (by omega) h, bind_ok, i32_ok _ (by omega) (by omega), bind_ok]
      rfl
    · left
      refine bind_err ?_
      unfold i32; rw [if_neg (by omega)]
  by_cases hall : ∀ i, i < p - 1 → 2 * (i : Int) ≤ 2147483647
  · refine forUp_bind 0 (p - 1) (fun i => shSt p x i) rfl (by unfold upto; omega) rfl (by omega) ?_ ?_
    · intro i _ h2
      rw [rd_at i rfl (by omega), bind_ok]
      unfold shmmaWeight
      have := hall i h2
      rw [i32_ok _ (by omega) (by omega), bind_ok, i32_ok _ (by omega) (by omega), bind_ok]
      simp only [pure_eq, bind_ok, shSt, if_pos h2]
    refine bind_err ?_
    refine forUp_err (p - 1) (p - 1) (fun i => (shSt p x i, ([] : List R))) (by unfold upto; omega) rfl le_rfl (by omega)
      (fun i a b => by omega) ?_
    simp only []
    rw [rd_at (p - 1) rfl (by omega), bind_ok, hout]
    rfl
  · refine bind_err ?_
    have hbig : 1073741824 < p - 1 := by
      by_contra h
      exact hall fun i hi => by omega
    refine forUp_err 0 1073741824 (fun i => shSt p x i) rfl rfl (by omega) (by unfold upto; omega) ?_ ?_
    · intro i _ h2
      rw [rd_at i rfl (by omega), bind_ok]
      unfold shmmaWeight
      rw [i32_ok _ (by omega) (by omega), bind_ok, i32_ok _ (by omega) (by omega), bind_ok]
      simp only [pure_eq, bind_ok, shSt, if_pos (show i < p - 1 by omega)]
    · rw [rd_at 1073741824 rfl (by omega), bind_ok]
      refine bind_err ?_
      unfold shmmaWeight
      refine bind_err ?_
      unfold i32; rw [if_neg (by omega)]

end Exact
end Any

section Field
variable {R : Type} [Field R] [LinearOrder R] [IsStrictOrderedRing R] [CMath R]

/-! ### Whole-number options -/

theorem ceil_cast [LawfulCeil R] (n : Int) : CMath.ceil ((n : Int) : R) = ((n : Int) : R) := by
  obtain ⟨m, hm, h1, h2⟩ := LawfulCeil.ceil_spec (((n : Int) : R))
  rw [hm]
  have a1 : ((m - 1 : Int) : R) < ((n : Int) : R) := by push_cast; exact h1
  have b1 := Int.cast_lt.1 a1
  have b2 := Int.cast_le.1 h2
  congr 1; omega

theorem bound_cast [LawfulCeil R] [LawfulTrunc R] [LawfulRound R] {v : R} (n : Int) (hv : v = ((n : Int) : R))
    (h : -2147483648 ≤ n ∧ n ≤ 2147483647) : bound v = .ok n := by
  unfold bound
  rw [hv, ceil_cast]
  exact toInt_cast n h

theorem not_cast_lt_one {v : R} {p : Nat} (hv : v = ((p : Int) : R)) (hp : 1 ≤ p) : ¬ v < ((1 : Int) : R) := by
  rw [hv, Int.cast_lt]; omega

/-! ### ahma -/

theorem ahmaRec_spec (p : Nat) (hp : 1 ≤ p) (x : Nat → R) : IsAhrens p x (ahmaRec p ((p : Int) : R) x) :=
  ⟨fun n h => ahmaRec_lt h, fun n h => by rw [ahmaRec_ge hp h]; push_cast; rfl⟩

/-- The defining recurrence has one solution. -/
theorem ahrens_unique (p : Nat) (hp : 1 ≤ p) (x y z : Nat → R) (hy : IsAhrens p x y) (hz : IsAhrens p x z) : y = z := by
  funext n
  induction n using Nat.strong_induction_on with
  | _ n ih =>
    by_cases h : n < p
    · rw [hy.1 n h, hz.1 n h]
    · rw [hy.2 n (by omega), hz.2 n (by omega), ih (n - 1) (by omega), ih (n - p) (by omega)]

/-- ahma: Ahrens' moving average. -/
theorem ahma_value (o : Nat → R) (p : Nat) (hc : toInt (o 0) = .ok (p : Int)) (hp : 1 ≤ p) (x y : Nat → R)
    (hy : IsAhrens p x y) (N : Nat) : ahmaBatch o (pre x N) = .ok (.okay, pre y N) := by
  rw [ahma_run o p hc hp x N, ahrens_unique p hp x y _ hy (ahmaRec_spec p hp x)]; rfl
theorem ahrens_exists (p : Nat) (hp : 1 ≤ p) (x : Nat → R) : ∃ y, IsAhrens p x y := ⟨_, ahmaRec_spec p hp x⟩
/-- ahma reproduces a constant. -/
theorem ahma_constant (o : Nat → R) (p : Nat) (hc : toInt (o 0) = .ok (p : Int)) (hp : 1 ≤ p) (v : R) (N : Nat) :
    ahmaBatch o (pre (fun _ => v) N) = .ok (.okay, pre (fun _ => v) N) :=
  ahma_value o p hc hp _ _ ⟨fun _ _ => rfl, fun n _ => by simp⟩ N

theorem ahma_ref_eq_batch_partial [LawfulCeil R] [LawfulTrunc R] [LawfulRound R] (o : Nat → R) (p : Nat)
    (ho : o 0 = ((p : Int) : R)) (hp : 1 ≤ p) (hb : p ≤ 2147483647) (xs : List R) : ahmaRef o xs = ahmaBatch o xs := by
  obtain ⟨x, hx⟩ := exists_pre xs
  have hc : toInt (o 0) = .ok (p : Int) := toInt_cast' ho (by omega)
  rw [hx, ahma_run o p hc hp x, ahmaRef_run o p (not_cast_lt_one ho hp) hc (bound_cast _ ho (by omega)) hp x, ho]

/-! ### ehma -/

theorem ehmaRec_eq (f g h : R → R → R) (a b c : R) (hf : ∀ x e, f x e = e + a * (x - e)) (hg : ∀ x e, g x e = e + b * (x - e))
    (hh : ∀ x e, h x e = e + c * (x - e)) (x : Nat → R) (n : Nat) :
    ehmaRec f g h x n = ⟨ema a x n, ema b x n, hullEma a b c x n⟩ := by
  induction n with
  | zero =>
    simp only [ehmaRec, ehmaFirst, hullEma, ema]
    push_cast
    rfl
  | succ n ih =>
    simp only [ehmaRec, ih, hf, hg, hh, hullEma, ema]
    push_cast
    rfl

/-- ehma: an exponential average with the square root of the period, of twice the one with half the period minus the one with
the whole period. -/
theorem ehma_value (o : Nat → R) (p : Nat) (hc : toInt (o 0) = .ok (p : Int)) (hp : 1 ≤ p) : Computes ehmaBatch o 0
    (hullEma (2 / ((p : R) / 2 + 1)) (2 / ((p : R) + 1)) (2 / (CMath.sqrt (p : R) + 1))) :=
  (ehma_run o p hc hp).congr fun x j => by
    rw [ehmaRec_eq _ _ _ (2 / ((p : R) / 2 + 1)) (2 / ((p : R) + 1)) (2 / (CMath.sqrt (p : R) + 1))] <;> intro x e <;>
      (unfold ehmaStep; push_cast; ring)
/-- Partial: `period + 1` overflows for the largest period (`ehma_stream_overflow`). -/
theorem ehma_stream_value_partial (o : Nat → R) (p : Nat) (hc : toInt (o 0) = .ok (p : Int)) (hp : 1 ≤ p) (hb : p < 2147483647) :
    (ehma (R := R)).StreamComputes o 0
      (hullEma (2 / ((p : R) / 2 + 1)) (2 / ((p : R) + 1)) (2 / (CMath.sqrt (p : R) + 1))) :=
  StreamComputes.congr (ehma_stream_run o p hc hp hb) fun x j => by
    rw [ehmaRec_eq _ _ _ (2 / ((p : R) / 2 + 1)) (2 / ((p : R) + 1)) (2 / (CMath.sqrt (p : R) + 1))] <;> intro x e <;>
      (unfold ehmaStepS; push_cast; ring)
theorem ehma_stream_eq_batch_partial (o : Nat → R) (p : Nat) (hc : toInt (o 0) = .ok (p : Int)) (hp : 1 ≤ p)
    (hb : p < 2147483647) : (ehma (R := R)).StreamEqBatch o 0 :=
  streamEqBatch_of (ehma_value o p hc hp) (ehma_stream_value_partial o p hc hp hb)
/-- ehma reproduces a constant. -/
theorem ehma_constant (o : Nat → R) (p : Nat) (hc : toInt (o 0) = .ok (p : Int)) (hp : 1 ≤ p) (v : R) (N : Nat) :
    ehmaBatch o (pre (fun _ => v) N) = .ok (.okay, pre (fun _ => v) N) := by
  have he : ∀ (a w : R) (n : Nat), ema a (fun _ => w) n = w := by
    intro a w n
    induction n with
    | zero => rfl
    | succ n ih => simp only [ema, ih]; ring
  rw [ehma_value o p hc hp]
  unfold hullEma
  simp only [he]
  rw [show (fun _ : Nat => 2 * v - v) = fun _ => v from funext fun _ => by ring]
  congr 2
  exact congrArg (fun f => pre f (N - 0)) (funext fun j => he _ _ j)

theorem sqrt_square [LawfulSqrt R] (q : R) (h : 0 ≤ q) : CMath.sqrt (q * q) = q := by
  have h1 := LawfulSqrt.sqrt_sq (q * q) (mul_nonneg h h)
  have h2 := LawfulSqrt.sqrt_nonneg (q * q) (mul_nonneg h h)
  rcases mul_self_eq_mul_self_iff.1 h1 with h3 | h3
  · exact h3
  · have : q = 0 := by linarith
    rw [h3, this, neg_zero]

theorem emaInto_run [LawfulTrunc R] [LawfulRound R] (v : R) (q : Nat) (hv : v = ((q : Int) : R)) (hq : 1 ≤ q) (hb : q ≤ 2147483647)
    (x : Nat → R) (N : Nat) : emaInto v (pre x N) = .ok (pre (ema (2 / ((q : R) + 1)) x) N) := by
  have hc : toInt ((fun _ : Nat => v) 0) = .ok (q : Int) := toInt_cast' hv (by omega)
  unfold emaInto
  rw [((ema_run _ q hc hq).congr fun x j => by rw [emaRec_eq, emaPer_eq]) x N, bind_ok]
  simp only [length_pre, Nat.sub_zero]
  rw [filled_exact _ _ (by simp)]
  rfl

/-- ehma: the reference implementation, which calls `ti_ema`, agrees with the batch call when half the period and its square
root are whole numbers. In general it does not, since `ti_ema` truncates its period (`ehma_ref_ne_batch`). -/
theorem ehma_ref_eq_batch_partial [LawfulSqrt R] [LawfulTrunc R] [LawfulRound R] (o : Nat → R) (p q : Nat)
    (hc : toInt (o 0) = .ok (p : Int)) (hq : 1 ≤ q) (hpq : p = 2 * q * (2 * q)) (xs : List R) :
    ehmaRef o xs = ehmaBatch o xs := by
  obtain ⟨x, hx⟩ := exists_pre xs
  have hr := toInt_range hc
  have hp1 : 4 ≤ p := by nlinarith
  have hq2 : 2 * q ≤ p := by nlinarith
  have hq3 : 2 * q * q ≤ p := by nlinarith
  have hq4 : 1 ≤ 2 * q * q := by nlinarith
  have hs : CMath.sqrt ((p : Int) : R) = (((2 * q : Nat) : Int) : R) := by
    have : (((p : Nat) : Int) : R) = ((2 * q : Nat) : R) * ((2 * q : Nat) : R) := by rw [hpq]; push_cast; ring
    rw [this, sqrt_square _ (Nat.cast_nonneg _), Int.cast_natCast]
  have hh : ((p : Int) : R) / ((2 : Int) : R) = (((2 * q * q : Nat) : Int) : R) := by
    rw [hpq]; push_cast; ring
  rw [hx, ehma_value o p hc (by omega) x]
  unfold ehmaRef
  rw [hc, bind_ok, if_neg (by omega), hh, emaInto_run _ (2 * q * q) rfl hq4 (by omega), bind_ok,
    emaInto_run _ p rfl (by omega) (by omega), bind_ok]
  simp only [length_pre]
  refine forUp_bind 0 xs.length (fun i => pre (fun j => 2 * ema (2 / (((2 * q * q : Nat) : R) + 1)) x j - ema (2 / ((p : R) + 1)) x j) i)
    rfl rfl rfl (by omega) ?_ ?_
  · intro i _ hi
    rw [rd_at i rfl hi, bind_ok, rd_at i rfl hi, bind_ok, wr_pre _ _ _ _ (by omega) ?_]
    push_cast; rfl
  rw [hs, ((ema_run (fun _ => (((2 * q : Nat) : Int) : R)) (2 * q) (toInt_cast _ (by omega)) (by omega)).congr fun x j => by
    rw [emaRec_eq, emaPer_eq]) _ xs.length, bind_ok]
  simp only [pure_eq]
  congr 3
  unfold hullEma
  have e1 : (p : R) / 2 = ((2 * q * q : Nat) : R) := by
    have := hh; push_cast at this ⊢; exact this
  have e2 : CMath.sqrt (p : R) = ((2 * q : Nat) : R) := by
    have := hs; push_cast at this ⊢; exact this
  rw [e1, e2]
  rfl
/-- With period 1 the reference implementation passes 1/2 to `ti_ema`, ignores that it refuses, and goes on with zeros. -/
theorem ehma_ref_ne_batch : ehmaRef (opts [1]) [(3 : Rat)] = .ok (.okay, [-3]) ∧ ehmaBatch (opts [1]) [(3 : Rat)] = .ok (.okay, [3]) := by
  decide +kernel

/-! ### idwma -/

theorem idVal_eq (p : Nat) (e : R) (x : Nat → R) (j : Nat) :
    idVal p e x j = backMean (fun k => 1 / CMath.pow ((k + 1 : Nat) : R) e) p x j := by
  unfold idVal backMean
  have h : ∀ k : Nat, (idW e k : R) = 1 / CMath.pow ((k + 1 : Nat) : R) e := fun k => by unfold idW; push_cast; rfl
  simp only [sumTo_eq, h]
  congr 1
  exact sum_congr rfl fun k _ => mul_comm _ _

/-- idwma: the mean in which the value `k` bars before the newest weighs `1 / (k + 1) ^ exponent`. -/
theorem idwma_value [LawfulTrunc R] [LawfulRound R] (o : Nat → R) (p : Nat) (hc : toInt (o 0) = .ok (p : Int)) (hp : 1 ≤ p)
    (h1 : 1 ≤ o 1) (h2 : o 1 ≤ 2) :
    Computes idwmaBatch o (p - 1) (backMean (fun k => 1 / CMath.pow ((k + 1 : Nat) : R) (o 1)) p) :=
  (idwma_run o p hc hp (by rintro (h | h) <;> push_cast at h <;> linarith) (toInt_sub_one hc hp)).congr
    fun x j => idVal_eq p (o 1) x j
theorem idwma_stream_value [LawfulTrunc R] [LawfulRound R] (o : Nat → R) (p : Nat) (hc : toInt (o 0) = .ok (p : Int)) (hp : 1 ≤ p)
    (h1 : 1 ≤ o 1) (h2 : o 1 ≤ 2) :
    (idwma (R := R)).StreamComputes o (p - 1) (backMean (fun k => 1 / CMath.pow ((k + 1 : Nat) : R) (o 1)) p) :=
  StreamComputes.congr (idwma_stream_run o p hc hp (by rintro (h | h) <;> push_cast at h <;> linarith) (toInt_sub_one hc hp))
    fun x j => idVal_eq p (o 1) x j
/-- idwma stays between bounds of the window, if powers are positive. -/
theorem idwma_bounds [LawfulTrunc R] [LawfulRound R] (o : Nat → R) (p : Nat) (hc : toInt (o 0) = .ok (p : Int)) (hp : 1 ≤ p)
    (h1 : 1 ≤ o 1) (h2 : o 1 ≤ 2) (hpow : ∀ k : Nat, 0 < CMath.pow ((k + 1 : Nat) : R) (o 1)) (x : Nat → R) (N : Nat) : ∃ y,
    idwmaBatch o (pre x N) = .ok (.okay, pre y (N - (p - 1))) ∧ ∀ lo hi j,
      (∀ k, k < p → lo ≤ x (j + k) ∧ x (j + k) ≤ hi) → lo ≤ y j ∧ y j ≤ hi :=
  ⟨_, idwma_value o p hc hp h1 h2 x N, fun lo hi j h => by
    have hw : ∀ k : Nat, 0 < 1 / CMath.pow ((k + 1 : Nat) : R) (o 1) := fun k => one_div_pos.2 (hpow k)
    refine wmean_bounds (fun k => 1 / CMath.pow ((k + 1 : Nat) : R) (o 1)) (fun k => x (j + (p - 1) - k)) lo hi
      (fun k _ => (hw k).le) (sum_pos (fun k _ => hw k) ⟨0, mem_range.2 (by omega)⟩) fun k hk => ?_
    have := h (p - 1 - k) (by omega)
    rwa [show j + (p - 1 - k) = j + (p - 1) - k by omega] at this⟩
/-- Partial: whole-number periods (`idwma_ref_violates`). -/
theorem idwma_ref_eq_batch_partial [LawfulCeil R] [LawfulTrunc R] [LawfulRound R] (o : Nat → R) (p : Nat)
    (ho : o 0 = ((p : Int) : R)) (hp : 1 ≤ p) (hb : p ≤ 2147483647) (h1 : 1 ≤ o 1) (h2 : o 1 ≤ 2) (xs : List R) :
    idwmaRef o xs = idwmaBatch o xs := by
  obtain ⟨x, hx⟩ := exists_pre xs
  have hc : toInt (o 0) = .ok (p : Int) := toInt_cast' ho (by omega)
  have hg : ¬ idwmaBad o := by rintro (h | h) <;> push_cast at h <;> linarith
  rw [hx, idwma_run o p hc hp hg (toInt_sub_one hc hp) x,
    ((idwmaRef_run o p (not_cast_lt_one ho hp) (bound_cast _ ho (by omega)) hp hg (toInt_sub_one hc hp)).congr fun x j => by
      show idRefVal p (o 1) x j = idVal p (o 1) x j
      unfold idRefVal idVal
      simp only [sumTo_eq]
      congr 1
      refine sum_congr rfl fun k _ => ?_
      unfold idW
      push_cast; ring) x]
/-- With a fractional period the reference implementation reads before the input. -/
theorem idwma_ref_violates : idwmaRef (opts [5/2, 1]) [1, 2, (3 : Rat)] = .error .oobRead := by decide +kernel

/-! ### lma -/

theorem lmaDen_eq (p : Nat) : (lmaDen p : R) = ∑ k ∈ range p, ((k + 1 : Nat) : R) := by
  unfold lmaDen
  rw [sumTo_eq]
  exact sum_congr rfl fun k _ => by push_cast; rfl

theorem lmaVal_eq (p : Nat) (hp : 1 ≤ p) (f g : R → R) (hf : ∀ a, f a = a / lmaDen p) (hg : ∀ a, g a = a / (p : R)) (x : Nat → R)
    (j : Nat) : lmaVal p f g x j = 2 * wma p x j - winMean p x j := by
  unfold lmaVal
  rw [hf, hg]
  have h1 := dwF_eq p hp (lmaDen p) (lmaDen_eq p) x j
  have h2 : (dwSt p x (j + (p - 1))).2 + x (j + (p - 1)) = winSum p x j := by
    have : ∀ n, (dwSt p x n).2 = slideS x p n := by
      intro n
      induction n with
      | zero => rfl
      | succ n ih =>
        simp only [dwSt, slideS]
        split_ifs <;> simp only [ih]
    rw [this, slideS_eq x p j hp]
  rw [h2, ← h1]
  unfold dwF winMean
  push_cast
  ring

/-- lma: twice the weighted moving average minus the simple one. -/
theorem lma_value [LawfulTrunc R] [LawfulRound R] (o : Nat → R) (p : Nat) (hc : toInt (o 0) = .ok (p : Int)) (hp : 1 ≤ p) :
    Computes lmaBatch o (p - 1) (fun x j => 2 * wma p x j - winMean p x j) :=
  (lma_run o p hc hp (toInt_sub_one hc hp)).congr fun x j =>
    lmaVal_eq p hp _ _ (fun _ => rfl) (fun _ => by push_cast; rfl) x j
/-- Partial: whole-number periods; the constants of the stream are not truncated (`lma_stream_ne_batch`). -/
theorem lma_stream_value_partial [LawfulTrunc R] [LawfulRound R] (o : Nat → R) (p : Nat) (ho : o 0 = ((p : Int) : R)) (hp : 1 ≤ p)
    (hb : p ≤ 2147483647) : (lma (R := R)).StreamComputes o (p - 1) (fun x j => 2 * wma p x j - winMean p x j) := by
  have hc : toInt (o 0) = .ok (p : Int) := toInt_cast' ho (by omega)
  refine StreamComputes.congr (lma_stream_run o p hc hp (not_cast_lt_one ho hp) (toInt_sub_one hc hp)) fun x j =>
    lmaVal_eq p hp _ _ (fun a => ?_) (fun a => ?_) x j
  · rw [lmaDen_eq, ← gauss, ho]; push_cast; ring
  · rw [ho]; push_cast; ring
theorem lma_stream_eq_batch_partial [LawfulTrunc R] [LawfulRound R] (o : Nat → R) (p : Nat) (ho : o 0 = ((p : Int) : R)) (hp : 1 ≤ p)
    (hb : p ≤ 2147483647) : (lma (R := R)).StreamEqBatch o (p - 1) :=
  streamEqBatch_of (lma_value o p (toInt_cast' ho (by omega)) hp) (lma_stream_value_partial o p ho hp hb)
/-- Partial: whole-number periods whose weight total fits an `int`, and enough input (`lma_ref_violates`). -/
theorem lma_ref_eq_batch_partial [LawfulCeil R] [LawfulTrunc R] [LawfulRound R] (o : Nat → R) (p : Nat)
    (ho : o 0 = ((p : Int) : R)) (hp : 1 ≤ p) (hb : p * (p + 1) ≤ 2147483647) (xs : List R) (hx1 : p - 1 ≤ xs.length)
    (hx2 : xs.length ≤ 2147483647) : lmaRef o xs = lmaBatch o xs := by
  obtain ⟨x, hx⟩ := exists_pre xs
  have hp2 : p ≤ 2147483647 := by nlinarith
  have hc : toInt (o 0) = .ok (p : Int) := toInt_cast' ho (by omega)
  have hw := ((wma_run o p hc hp hb).congr fun x j => wmaVal_eq p hp x j) x xs.length
  have hm := sma_value o p hc hp x xs.length
  have hl := lma_value o p hc hp x xs.length
  have e : (((xs.length : Nat) : Int) : R) - o 0 + ((1 : Int) : R) = (((xs.length - (p - 1) : Nat) : Int) : R) := by
    rw [ho, show ((xs.length - (p - 1) : Nat) : Int) = (xs.length : Int) - p + 1 by omega]
    push_cast; rfl
  rw [← hx] at hw hm hl
  rw [hl]
  unfold lmaRef vecSize
  rw [if_neg (not_cast_lt_one ho hp)]
  simp only [lmaStart, toInt_sub_one hc hp, bind_ok, e, toInt_cast (R := R) _ (show -2147483648 ≤ ((xs.length - (p - 1) : Nat) : Int) ∧ _ ≤ _ by omega),
    hw, hm, bound_cast _ rfl (show -2147483648 ≤ ((xs.length - (p - 1) : Nat) : Int) ∧ _ ≤ (2147483647 : Int) by omega)]
  rw [if_neg (by omega), pure_eq, bind_ok, filled_exact _ _ (by simp), bind_ok, filled_exact _ _ (by simp), bind_ok]
  refine forUp_bind 0 (xs.length - (p - 1)) (fun i => pre (fun j => 2 * wma p x j - winMean p x j) i) rfl rfl rfl (by omega) ?_ rfl
  intro i _ hi
  rw [rd_at i rfl hi, bind_ok, rd_at i rfl hi, bind_ok, wr_pre _ _ _ _ (by omega) ?_]
  rw [show ((2 : Int) : R) = 2 by norm_num]; rfl
/-- Inputs shorter than the period make the reference implementation ask for a vector of negative size; a fractional period
makes the averages write past it. -/
theorem lma_ref_violates : lmaRef (opts [3]) [(1 : Rat)] = .error .intRange ∧
    lmaRef (opts [5/2]) [1, 2, (3 : Rat)] = .error .oobWrite := by decide +kernel

/-! ### shmma -/

theorem shSt_warm (p : Nat) (x : Nat → R) (i : Nat) (hi : i ≤ p - 1) : shSt p x i =
    (∑ k ∈ range i, x k, ∑ k ∈ range i, ((k : R) - ((p : R) - 1) / 2) * x k) := by
  induction i with
  | zero => simp [shSt]
  | succ i ih =>
    simp only [shSt, if_pos (show i < p - 1 by omega), ih (by omega), sum_range_succ]
    congr 2
    push_cast
    ring

theorem shSt_main (q : Nat) (x : Nat → R) (j : Nat) : shSt (q + 1) x (j + q) =
    (∑ k ∈ range q, x (j + k), ∑ k ∈ range q, ((k : R) - (q : R) / 2) * x (j + k)) := by
  induction j with
  | zero =>
    rw [Nat.zero_add, shSt_warm _ _ _ (by omega)]
    simp
  | succ j ih =>
    rw [show j + 1 + q = j + q + 1 by omega]
    simp only [shSt, if_neg (show ¬ j + q < q + 1 - 1 by omega), ih, shmmaSlide, Nat.add_sub_cancel]
    have s1 : ∑ k ∈ range (q + 1), x (j + k) = (∑ k ∈ range q, x (j + 1 + k)) + x j := by
      rw [sum_range_succ']
      congr 1
      exact sum_congr rfl fun k _ => by rw [show j + (k + 1) = j + 1 + k by omega]
    have s2 : ∑ k ∈ range (q + 1), ((k : R) - (q : R) / 2) * x (j + k) =
        (∑ k ∈ range q, ((k : R) - (q : R) / 2) * x (j + 1 + k)) + (∑ k ∈ range q, x (j + 1 + k)) - (q : R) / 2 * x j := by
      rw [sum_range_succ', ← sum_add_distrib]
      simp only [Nat.cast_zero, Nat.add_zero]
      have : ∀ k ∈ range q, (((k + 1 : Nat) : R) - (q : R) / 2) * x (j + (k + 1)) =
          ((k : R) - (q : R) / 2) * x (j + 1 + k) + x (j + 1 + k) := fun k _ => by
        rw [show j + (k + 1) = j + 1 + k by omega]; push_cast; ring
      rw [sum_congr rfl this]; ring
    rw [sum_range_succ] at s1 s2
    rw [if_neg (by omega)]
    refine Prod.ext ?_ ?_
    · show _ - _ = _
      rw [s1]; ring
    · simp only []
      push_cast
      linear_combination s2 - s1

theorem shVal_eq (p : Nat) (hp : 1 ≤ p) (x : Nat → R) (j : Nat) : shVal p x j = sharpMean p x j := by
  obtain ⟨q, rfl⟩ : ∃ q, p = q + 1 := ⟨p - 1, by omega⟩
  unfold shVal sharpMean winMean winSum
  rw [Nat.add_sub_cancel, shSt_main, sum_range_succ, sum_range_succ _ q]
  push_cast
  simp only [add_sub_cancel_right]
  ring

theorem shRefVal_eq (p : Nat) (x : Nat → R) (j : Nat) : shRefVal p ((p : Int) : R) x j = sharpMean p x j := by
  unfold shRefVal sharpMean winMean winSum
  rw [sumTo_eq, sumTo_eq, ← sum_range_reflect, ← sum_range_reflect (fun k => _ / _ * _)]
  have e1 : ∀ k ∈ range p, x (j + (p - 1) - (p - 1 - k)) = x (j + k) := fun k hk => by
    have := mem_range.1 hk
    rw [show j + (p - 1) - (p - 1 - k) = j + k by omega]
  have e2 : ∀ k ∈ range p, (((p : Int) : R) - (((((p - 1 - k : Nat) : Int) * 2 : Int) : R) + ((1 : Int) : R))) / ((2 : Int) : R) *
      x (j + (p - 1) - (p - 1 - k)) = ((k : R) - ((p : R) - 1) / 2) * x (j + k) := fun k hk => by
    have := mem_range.1 hk
    rw [e1 k hk, show ((p - 1 - k : Nat) : Int) = (p : Int) - 1 - k by omega]
    push_cast; ring
  rw [sum_congr rfl e1, sum_congr rfl e2]
  push_cast
  ring

/-- shmma: the mean plus the slope correction. -/
theorem shmma_value_partial [LawfulTrunc R] [LawfulRound R] (o : Nat → R) (p : Nat) (hc : toInt (o 0) = .ok (p : Int)) (hp : 1 ≤ p)
    (hb : (p + 1) * p ≤ 2147483647) : Computes shmmaBatch o (p - 1) (sharpMean p) :=
  (shmma_run o p hc hp hb (toInt_sub_one hc hp)).congr fun x j => shVal_eq p hp x j
theorem shmma_stream_value_partial [LawfulTrunc R] [LawfulRound R] (o : Nat → R) (p : Nat) (hc : toInt (o 0) = .ok (p : Int))
    (hp : 1 ≤ p) (hb : (p + 1) * p ≤ 2147483647) : (shmma (R := R)).StreamComputes o (p - 1) (sharpMean p) :=
  StreamComputes.congr (shmma_stream_run o p hc hp (not_lt_one hc hp) hb (toInt_sub_one hc hp)) fun x j => shVal_eq p hp x j
/-- Partial: whole-number periods (`shmma_ref_violates`). -/
theorem shmma_ref_eq_batch_partial [LawfulCeil R] [LawfulTrunc R] [LawfulRound R] (o : Nat → R) (p : Nat)
    (ho : o 0 = ((p : Int) : R)) (hp : 1 ≤ p) (hb : (p + 1) * p ≤ 2147483647) (xs : List R) : shmmaRef o xs = shmmaBatch o xs := by
  obtain ⟨x, hx⟩ := exists_pre xs
  have hs := sh_small hb
  have hc : toInt (o 0) = .ok (p : Int) := toInt_cast' ho (by omega)
  rw [hx, shmma_value_partial o p hc hp hb x,
    ((shmmaRef_run o p (not_cast_lt_one ho hp) (bound_cast _ ho (by omega)) hp (toInt_sub_one hc hp)).congr fun x j => by
      show shRefVal p (o 0) x j = sharpMean p x j
      rw [ho, shRefVal_eq]) x]
/-- With a fractional period the reference implementation reads before the input. -/
theorem shmma_ref_violates : shmmaRef (opts [5/2]) [1, 2, (3 : Rat)] = .error .oobRead := by decide +kernel

/-- The sharp modified average is the least squares line of the window at its newest bar. -/
theorem sharpMean_eq_line (p : Nat) (hp : 2 ≤ p) (x : Nat → R) (j : Nat) (a b : R) (h : IsBestLine p x j a b) :
    sharpMean p x j = a + b * (p : R) := by
  obtain ⟨rfl, rfl⟩ := lr_unique x p j hp a b h
  obtain ⟨h1, h2⟩ := lr_normal x p j hp
  generalize lrA x p j = a at *
  generalize lrB x p j = b at *
  have hp0 : (p : R) ≠ 0 := by exact_mod_cast (show p ≠ 0 by omega)
  have hp1 : (p : R) + 1 ≠ 0 := by positivity
  have X1 : ∀ k : Nat, ∑ i ∈ range k, ((i + 1 : Nat) : R) = (k : R) * (k + 1) / 2 := by
    intro k
    induction k with
    | zero => simp
    | succ k ih => rw [sum_range_succ, ih]; push_cast; ring
  have X2 : ∀ k : Nat, ∑ i ∈ range k, ((i + 1 : Nat) : R) * ((i + 1 : Nat) : R) = (k : R) * (k + 1) * (2 * k + 1) / 6 := by
    intro k
    induction k with
    | zero => simp
    | succ k ih => rw [sum_range_succ, ih]; push_cast; ring
  have e1 : ∑ k ∈ range p, x (j + k) = p * a + b * (p * (p + 1) / 2) := by
    rw [sum_sub_distrib, sum_add_distrib, ← mul_sum, X1, sum_const, card_range, nsmul_eq_mul] at h1
    linear_combination h1
  have e2 : ∑ k ∈ range p, x (j + k) * ((k + 1 : Nat) : R) = a * (p * (p + 1) / 2) + b * (p * (p + 1) * (2 * p + 1) / 6) := by
    have : ∀ k ∈ range p, (x (j + k) - (a + b * ((k + 1 : Nat) : R))) * ((k + 1 : Nat) : R) =
        x (j + k) * ((k + 1 : Nat) : R) - (a * ((k + 1 : Nat) : R) + b * (((k + 1 : Nat) : R) * ((k + 1 : Nat) : R))) :=
      fun k _ => by ring
    rw [sum_congr rfl this, sum_sub_distrib, sum_add_distrib, ← mul_sum, ← mul_sum, X1, X2] at h2
    linear_combination h2
  have e3 : ∑ k ∈ range p, ((k : R) - ((p : R) - 1) / 2) * x (j + k) =
      ∑ k ∈ range p, x (j + k) * ((k + 1 : Nat) : R) - ((p : R) + 1) / 2 * ∑ k ∈ range p, x (j + k) := by
    rw [mul_sum, ← sum_sub_distrib]
    exact sum_congr rfl fun k _ => by push_cast; ring
  unfold sharpMean winMean winSum
  rw [e3, e2, e1]
  field_simp
  ring
/-- shmma and linreg compute the same values. -/
theorem shmma_eq_linreg_partial [LawfulTrunc R] [LawfulRound R] (o : Nat → R) (p : Nat) (hc : toInt (o 0) = .ok (p : Int)) (hp : 2 ≤ p)
    (hb : (p + 1) * p ≤ 2147483647) (xs : List R) : shmmaBatch o xs = linregBatch o xs := by
  obtain ⟨x, hx⟩ := exists_pre xs
  obtain ⟨a, b, hab, hl⟩ := linreg_value_partial o p hc hp (by nlinarith)
  rw [hx, shmma_value_partial o p hc (by omega) hb x, hl x]
  congr 2
  exact congrArg (fun f => pre f _) (funext fun j => sharpMean_eq_line p hp x j _ _ (hab x j))

/-! ### emsd -/

theorem winVar_moments (p : Nat) (hp : 1 ≤ p) (x : Nat → R) (j : Nat) :
    winSum p (fun i => x i * x i) j / (p : R) - winSum p x j / (p : R) * (winSum p x j / (p : R)) = winVar p x j := by
  rw [← momVar_eq x p hp j]
  simp only [momVar, mom, slide_eq]
  push_cast
  ring

theorem emsdVar_eq [LawfulPow R] (p : Nat) (hp : 1 ≤ p) (dv : R → R) (hd : ∀ s, dv s = s / (p : R)) (x : Nat → R) (j : Nat) :
    emsdVar p dv x j = winVar p x j := by
  unfold emsdVar
  simp only [hd]
  rw [slideS_eq x p j hp, slideS_eq (fun i => x i * x i) p j hp, ← winVar_moments p hp x j]
  split_ifs
  · rw [show ((2 : Int) : R) = 2 by norm_num, LawfulPow.pow_two, pow_two]
  · rfl

/-- emsd: the standard deviation of the window. The averaging period has no effect. Partial: `ma_period + 1` overflows for the
largest one. -/
theorem emsd_value_partial [LawfulPow R] (o : Nat → R) (p m : Nat) (hc : toInt (o 0) = .ok (p : Int))
    (h1 : toInt (o 1) = .ok (m : Int)) (hp : 1 ≤ p) (hm : 1 ≤ m) (hb : m < 2147483647) :
    Computes emsdBatch o (p - 1) (fun x j => CMath.sqrt (winVar p x j)) :=
  (emsd_run o p m hc h1 hp hm hb).congr fun x j => by
    rw [emsdVar_eq p hp _ (fun s => by push_cast; rfl)]
theorem emsd_stream_value [LawfulPow R] (o : Nat → R) (p m : Nat) (hc : toInt (o 0) = .ok (p : Int))
    (h1 : toInt (o 1) = .ok (m : Int)) (hp : 1 ≤ p) (hm : 1 ≤ m) :
    (emsd (R := R)).StreamComputes o (p - 1) (fun x j => CMath.sqrt (winVar p x j)) :=
  StreamComputes.congr (emsd_stream_run o p m hc h1 hp hm) fun x j => by
    rw [emsdVar_eq p hp _ (fun s => by push_cast; rw [mul_one_div])]
theorem emsd_stream_eq_batch_partial [LawfulPow R] (o : Nat → R) (p m : Nat) (hc : toInt (o 0) = .ok (p : Int))
    (h1 : toInt (o 1) = .ok (m : Int)) (hp : 1 ≤ p) (hm : 1 ≤ m) (hb : m < 2147483647) : (emsd (R := R)).StreamEqBatch o (p - 1) :=
  streamEqBatch_of (emsd_value_partial o p m hc h1 hp hm hb) (emsd_stream_value o p m hc h1 hp hm)
/-- The averaging period has no effect on the output. -/
theorem emsd_ignores_ma_period [LawfulPow R] (o o' : Nat → R) (p m m' : Nat) (hc : toInt (o 0) = .ok (p : Int))
    (hc' : toInt (o' 0) = .ok (p : Int)) (h1 : toInt (o 1) = .ok (m : Int)) (h1' : toInt (o' 1) = .ok (m' : Int)) (hp : 1 ≤ p)
    (hm : 1 ≤ m) (hm' : 1 ≤ m') (hb : m < 2147483647) (hb' : m' < 2147483647) (xs : List R) : emsdBatch o xs = emsdBatch o' xs := by
  obtain ⟨x, hx⟩ := exists_pre xs
  rw [hx, emsd_value_partial o p m hc h1 hp hm hb x, emsd_value_partial o' p m' hc' h1' hp hm' hb' x]
/-- The square root is never taken of a negative number. -/
theorem emsd_nonneg_partial [LawfulPow R] [LawfulSqrt R] (o : Nat → R) (p m : Nat) (hc : toInt (o 0) = .ok (p : Int))
    (h1 : toInt (o 1) = .ok (m : Int)) (hp : 1 ≤ p) (hm : 1 ≤ m) (hb : m < 2147483647) (x : Nat → R) (N : Nat) : ∃ y,
    emsdBatch o (pre x N) = .ok (.okay, pre y (N - (p - 1))) ∧ ∀ j, 0 ≤ y j ∧ y j * y j = winVar p x j :=
  ⟨_, emsd_value_partial o p m hc h1 hp hm hb x N, fun j =>
    ⟨LawfulSqrt.sqrt_nonneg _ (winVar_nonneg x p j), LawfulSqrt.sqrt_sq _ (winVar_nonneg x p j)⟩⟩
/-- Partial: whole-number periods. -/
theorem emsd_ref_eq_batch_partial [LawfulPow R] [LawfulCeil R] [LawfulTrunc R] [LawfulRound R] (o : Nat → R) (p m : Nat)
    (ho : o 0 = ((p : Int) : R)) (h1 : toInt (o 1) = .ok (m : Int)) (hp : 1 ≤ p) (hpb : p ≤ 2147483647) (hm : 1 ≤ m)
    (hb : m < 2147483647) (xs : List R) : emsdRef o xs = emsdBatch o xs := by
  obtain ⟨x, hx⟩ := exists_pre xs
  have hc : toInt (o 0) = .ok (p : Int) := toInt_cast' ho (by omega)
  rw [hx, emsd_value_partial o p m hc h1 hp hm hb x,
    ((emsdRef_run o p m (not_cast_lt_one ho hp) (not_lt_one h1 hm) hc h1 (bound_cast _ ho (by omega))
      (bound_cast _ (by rw [ho]; push_cast; rfl) (by omega)) hp).congr fun x j => by
        show CMath.sqrt (emsdVar p (· / o 0) x j) = CMath.sqrt (winVar p x j)
        rw [emsdVar_eq p hp _ (fun s => by rw [ho]; push_cast; rfl)]) x]

/-! ### edcf -/

theorem edVal_eq (p : Nat) (x : Nat → R) (t : Nat) : edVal p (fun k => x (t - k)) = distFilter p x t := by
  have hw : ∀ c, edW p (fun k => x (t - k)) c = distWeight p x (t - c) := by
    intro c
    unfold edW distWeight
    rw [sumTo_eq]
    refine sum_congr rfl fun l _ => ?_
    simp only []
    rw [pow_two, show t - (c + (l + 1)) = t - c - (l + 1) by omega]
  unfold edVal distFilter
  simp only [sumTo_eq, hw, beq_iff_eq, Int.cast_zero]

theorem vecSize_ok {v : R} {m : Nat} (h : toInt v = .ok (m : Int)) : vecSize v = .ok (m : Int) := by
  unfold vecSize
  rw [h, bind_ok, if_neg (by omega)]
  rfl

theorem edcf_whole [LawfulCeil R] [LawfulTrunc R] [LawfulRound R] {v : R} {p : Nat} (hv : v = ((p : Int) : R)) (hp : 1 ≤ p)
    (hb : p ≤ 1073741823) : ¬ v < ((1 : Int) : R) ∧ toInt (((2 : Int) : R) * v - ((1 : Int) : R)) = .ok ((2 * p - 1 : Nat) : Int) ∧
      vecSize (((2 : Int) : R) * v) = .ok ((2 * p : Nat) : Int) ∧ bound v = .ok (p : Int) := by
  refine ⟨not_cast_lt_one hv hp, ?_, vecSize_ok ?_, bound_cast _ hv (by omega)⟩
  · rw [show ((2 : Int) : R) * v - ((1 : Int) : R) = (((2 * p - 1 : Nat) : Int) : R) by
      rw [hv, show ((2 * p - 1 : Nat) : Int) = 2 * (p : Int) - 1 by omega]; push_cast; rfl]
    exact toInt_cast _ (by omega)
  · rw [show ((2 : Int) : R) * v = (((2 * p : Nat) : Int) : R) by rw [hv]; push_cast; rfl]
    exact toInt_cast _ (by omega)

theorem ceil_within [LawfulCeil R] {v : R} {p : Nat} (h1 : (p : R) < v) (h2 : v ≤ p + 1) :
    CMath.ceil v = (((p + 1 : Nat) : Int) : R) := by
  obtain ⟨m, hm, a, b⟩ := LawfulCeil.ceil_spec v
  rw [hm]
  have a1 : ((m - 1 : Int) : R) < ((p + 1 : Int) : R) := by push_cast; linarith
  have a2 : ((p : Int) : R) < ((m : Int) : R) := by push_cast; linarith
  have b1 := Int.cast_lt.1 a1
  have b2 := Int.cast_lt.1 a2
  congr 1; push_cast; omega

theorem bound_within [LawfulCeil R] [LawfulTrunc R] [LawfulRound R] {v : R} {p : Nat} (h1 : (p : R) < v) (h2 : v ≤ p + 1)
    (hb : p < 2147483647) : bound v = .ok ((p + 1 : Nat) : Int) := by
  unfold bound
  rw [ceil_within h1 h2]
  exact toInt_cast _ (by omega)

/-- Partial: whole-number lengths that fit. For fractions from one half on see `edcf_value_frac`, for others
`edcf_violates`. -/
theorem edcf_contract_partial [LawfulCeil R] [LawfulTrunc R] [LawfulRound R] (o : Nat → R) (p : Nat) (ho : o 0 = ((p : Int) : R))
    (hp : 1 ≤ p) (hb : p ≤ 1073741823) : Contract edcfStart edcfBatch o (2 * p - 1) := by
  obtain ⟨h1, h2, h3, h4⟩ := edcf_whole ho hp hb
  exact (edcf_run o p (2 * p) (2 * p - 1) h1 h2 h3 h4 hp (by omega) (by omega)).contract h2
/-- edcf: the distance coefficient filter over the last `length` bars. -/
theorem edcf_value_partial [LawfulCeil R] [LawfulTrunc R] [LawfulRound R] (o : Nat → R) (p : Nat) (ho : o 0 = ((p : Int) : R))
    (hp : 1 ≤ p) (hb : p ≤ 1073741823) : Computes edcfBatch o (2 * p - 1) (fun x j => distFilter p x (j + (2 * p - 1))) := by
  obtain ⟨h1, h2, h3, h4⟩ := edcf_whole ho hp hb
  exact (edcf_run o p (2 * p) (2 * p - 1) h1 h2 h3 h4 hp (by omega) (by omega)).congr fun x j => edVal_eq p x _
theorem edcf_stream_value_partial [LawfulCeil R] [LawfulTrunc R] [LawfulRound R] (o : Nat → R) (p : Nat)
    (ho : o 0 = ((p : Int) : R)) (hp : 1 ≤ p) (hb : p ≤ 1073741823) :
    (edcf (R := R)).StreamComputes o (2 * p - 1) (fun x j => distFilter p x (j + (2 * p - 1))) := by
  obtain ⟨h1, h2, h3, h4⟩ := edcf_whole ho hp hb
  exact StreamComputes.congr (edcf_stream_run o p (2 * p) (2 * p - 1) h1 h2 h3 h4 hp (by omega) (by omega)) fun x j => edVal_eq p x _
theorem edcf_stream_eq_batch_partial [LawfulCeil R] [LawfulTrunc R] [LawfulRound R] (o : Nat → R) (p : Nat)
    (ho : o 0 = ((p : Int) : R)) (hp : 1 ≤ p) (hb : p ≤ 1073741823) : (edcf (R := R)).StreamEqBatch o (2 * p - 1) :=
  streamEqBatch_of (edcf_value_partial o p ho hp hb) (edcf_stream_value_partial o p ho hp hb)
/-- A length with a fraction from one half on acts as the next whole number, with one bar less of warm-up. -/
theorem edcf_value_frac [LawfulCeil R] [LawfulTrunc R] [LawfulRound R] (o : Nat → R) (p : Nat) (h1 : (p : R) + 1 / 2 ≤ o 0)
    (h2 : o 0 < p + 1) (hp : 1 ≤ p) (hb : p < 1073741823) :
    Contract edcfStart edcfBatch o (2 * p) ∧ Computes edcfBatch o (2 * p) (fun x j => distFilter (p + 1) x (j + 2 * p)) := by
  have hp' : (1 : R) ≤ p := by exact_mod_cast hp
  have hs : edcfStart o = .ok ((2 * p : Nat) : Int) := toInt_of_within (by push_cast; linarith) (by push_cast; linarith) (by omega)
  have hm : vecSize (((2 : Int) : R) * o 0) = .ok ((2 * p + 1 : Nat) : Int) :=
    vecSize_ok (toInt_of_within (by push_cast; linarith) (by push_cast; linarith) (by omega))
  have hrun := edcf_run o (p + 1) (2 * p + 1) (2 * p) (by push_cast; linarith) hs hm
    (bound_within (by linarith) (by linarith) (by omega)) (by omega) (by omega) (by omega)
  exact ⟨hrun.contract hs, hrun.congr fun x j => edVal_eq (p + 1) x _⟩
/-- A length with a smaller fraction makes the first output read past the stored prices. -/
theorem edcf_violates [LawfulCeil R] [LawfulTrunc R] [LawfulRound R] (o : Nat → R) (p : Nat) (h1 : (p : R) < o 0)
    (h2 : o 0 < p + 1 / 2) (hp : 1 ≤ p) (hb : p < 1073741823) (xs : List R) (hx : 2 * p ≤ xs.length) :
    edcfBatch o xs = .error .oobRead := by
  have hp' : (1 : R) ≤ p := by exact_mod_cast hp
  have hs : edcfStart o = .ok ((2 * (p + 1) - 3 : Nat) : Int) := by
    have : ((2 * (p + 1) - 3 : Nat) : R) = 2 * p - 1 := by
      rw [Nat.cast_sub (by omega)]; push_cast; ring
    exact toInt_of_within (by rw [this]; push_cast; linarith) (by rw [this]; push_cast; linarith) (by omega)
  have hm : vecSize (((2 : Int) : R) * o 0) = .ok ((2 * p : Nat) : Int) :=
    vecSize_ok (toInt_of_within (by push_cast; linarith) (by push_cast; linarith) (by omega))
  exact edcf_err o (p + 1) (2 * p) (by push_cast; linarith) hs hm (bound_within (by linarith) (by linarith) (by omega))
    (by omega) (by omega) xs (by omega)

theorem distWeight_nonneg (p : Nat) (x : Nat → R) (t : Nat) : 0 ≤ distWeight p x t := sum_nonneg fun _ _ => sq_nonneg _
/-- Where the filter does not fall back to 0 it stays between bounds of the values it averages. -/
theorem edcf_bounds_partial [LawfulCeil R] [LawfulTrunc R] [LawfulRound R] (o : Nat → R) (p : Nat) (ho : o 0 = ((p : Int) : R))
    (hp : 1 ≤ p) (hb : p ≤ 1073741823) (x : Nat → R) (N : Nat) : ∃ y,
    edcfBatch o (pre x N) = .ok (.okay, pre y (N - (2 * p - 1))) ∧ ∀ lo hi j,
      (∀ k, k < p → lo ≤ x (j + (2 * p - 1) - k) ∧ x (j + (2 * p - 1) - k) ≤ hi) → y j = 0 ∨ (lo ≤ y j ∧ y j ≤ hi) :=
  ⟨_, edcf_value_partial o p ho hp hb x N, fun lo hi j h => by
    show distFilter p x (j + (2 * p - 1)) = 0 ∨ (lo ≤ distFilter p x (j + (2 * p - 1)) ∧ distFilter p x (j + (2 * p - 1)) ≤ hi)
    unfold distFilter
    split_ifs with h0
    · exact Or.inl rfl
    · right
      have hn : 0 ≤ ∑ k ∈ range p, distWeight p x (j + (2 * p - 1) - k) := sum_nonneg fun _ _ => distWeight_nonneg _ _ _
      exact wmean_bounds (fun k => distWeight p x (j + (2 * p - 1) - k)) (fun k => x (j + (2 * p - 1) - k)) lo hi
        (fun k _ => distWeight_nonneg _ _ _) (lt_of_le_of_ne hn (Ne.symm h0)) h⟩
/-- A constant signal is not reproduced: all weights vanish and the output is 0. -/
theorem edcf_constant_partial [LawfulCeil R] [LawfulTrunc R] [LawfulRound R] (o : Nat → R) (p : Nat) (ho : o 0 = ((p : Int) : R))
    (hp : 1 ≤ p) (hb : p ≤ 1073741823) (v : R) (N : Nat) :
    edcfBatch o (pre (fun _ => v) N) = .ok (.okay, pre (fun _ => 0) (N - (2 * p - 1))) := by
  rw [edcf_value_partial o p ho hp hb]
  congr 2
  refine congrArg (fun f => pre f _) (funext fun j => ?_)
  simp [distFilter, distWeight]

end Field

/-! ### Concrete instances -/

/-- ahma can leave the range of its input. -/
theorem ahma_overshoots : ahmaBatch (opts [2]) [1, 0, (0 : Rat)] = .ok (.okay, [1, 0, -1/4]) := by decide +kernel
/-- A fractional period: the batch call truncates it, the reference implementation divides by it. -/
theorem ahma_ref_ne_batch : ahmaRef (opts [5/2]) [1, 2, 3, (4 : Rat)] ≠ ahmaBatch (opts [5/2]) [1, 2, 3, 4] := by decide +kernel
/-- The stream of lma does not truncate the period where it divides. -/
theorem lma_stream_ne_batch : lmaBatch (opts [5/2]) [1, (2 : Rat)] = .ok (.okay, [11/6]) ∧
    (lma (R := Rat)).session (opts [5/2]) [[1, 2]] = .ok (.okay, 1, [38/35]) := by decide +kernel
/-- A fractional period: the batch call truncates it, the reference implementation divides by it. -/
theorem emsd_ref_ne_batch : emsdRef (opts [5/2, 1]) [1, 2, 3, (4 : Rat)] ≠ emsdBatch (opts [5/2, 1]) [1, 2, 3, 4] := by decide +kernel

example : toInt (opts [2] 0) = .ok ((2 : Nat) : Int) := by decide +kernel
example : ehmaBatch (opts [4]) [1, 2, (3 : Rat)] = .ok (.okay, [1, 73/45, 1747/675]) := by decide +kernel
example : ehmaRef (opts [4]) [1, 2, (3 : Rat)] = ehmaBatch (opts [4]) [1, 2, 3] := by decide +kernel
example : (ehma (R := Rat)).session (opts [4]) [[1], [], [2, 3]] = .ok (.okay, 3, [1, 73/45, 1747/675]) := by decide +kernel
example : (ahma (R := Rat)).session (opts [2]) [[1, 2], [3, 4]] = .ok (.okay, 4, [1, 2, 11/4, 57/16]) := by decide +kernel
example : idwmaBatch (opts [3, 1]) [1, 2, 6, (3 : Rat)] = .ok (.okay, [4, 40/11]) := by decide +kernel
example : (idwma (R := Rat)).session (opts [3, 1]) [[1, 2], [6], [3]] = .ok (.okay, 2, [4, 40/11]) := by decide +kernel
example : lmaBatch (opts [3]) [1, 2, 6, (3 : Rat)] = .ok (.okay, [14/3, 4]) := by decide +kernel
example : lmaRef (opts [3]) [1, 2, 6, (3 : Rat)] = .ok (.okay, [14/3, 4]) := by decide +kernel
example : shmmaBatch (opts [3]) [1, 2, 6, (3 : Rat)] = .ok (.okay, [11/2, 25/6]) := by decide +kernel
example : (shmma (R := Rat)).session (opts [3]) [[1, 2], [6], [3]] = .ok (.okay, 2, [11/2, 25/6]) := by decide +kernel
example : linregBatch (opts [3]) [1, 2, 6, (3 : Rat)] = .ok (.okay, [11/2, 25/6]) := by decide +kernel
example : emsdBatch (opts [2, 3]) [1, 3, 7, (7 : Rat)] = .ok (.okay, [1, 2, 0]) := by decide +kernel
example : (emsd (R := Rat)).session (opts [2, 3]) [[1], [3, 7], [7]] = .ok (.okay, 3, [1, 2, 0]) := by decide +kernel
example : edcfBatch (opts [2]) [1, 2, 4, 3, (3 : Rat)] = .ok (.okay, [19/5, 3]) := by decide +kernel
example : (edcf (R := Rat)).session (opts [2]) [[1, 2], [4, 3], [3]] = .ok (.okay, 2, [19/5, 3]) := by decide +kernel
example : edcfBatch (opts [5/2]) [1, 2, 4, 3, (3 : Rat)] = .ok (.okay, [61/16]) := by decide +kernel
example : edcfBatch (opts [9/4]) [1, 2, 4, 3, (3 : Rat)] = .error .oobRead := by decide +kernel
example : ((2 : Nat) : Rat) < opts [9/4] 0 ∧ opts [9/4] 0 < ((2 : Nat) : Rat) + 1 / 2 := by decide +kernel
/-- The square of an even number, as the agreement of the reference implementation requires. -/
example : toInt (opts [16] 0 : Rat) = .ok ((16 : Nat) : Int) ∧ 16 = 2 * 2 * (2 * 2) := by decide +kernel

end Verif
