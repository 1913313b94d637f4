/- Loop lemmas of hf, hfema and hfsma. -/
import Verif.Model.Hampel
import Verif.Proof.Rank
import Verif.Proof.Sum
import Verif.Proof.Ema
import Verif.Proof.Cycle

set_option linter.unusedSectionVars false
set_option linter.unusedSimpArgs false
set_option linter.unusedVariables false

namespace Verif

section Any
variable {R : Type} [Num R]

theorem hfPhases_ordered (c : Int × R) : Phases.Ordered (hfPhases c) := by phases_ordered hfPhases
theorem hfsmaPhases_ordered (c : Int × Int × R) : Phases.Ordered (hfsmaPhases c) := by phases_ordered hfsmaPhases
theorem hfemaPhases_ordered (c : HfemaK R) : Phases.Ordered (hfemaPhases c) := by phases_ordered hfemaPhases

/-- The exponential average with divisor `d`, as the loops of hfema compute it. -/
def emaDiv (d : R) (x : Nat → R) : Nat → R
  | 0 => x 0
  | n + 1 => (x (n + 1) - emaDiv d x n) * c! 2 / d + emaDiv d x n

/-- The mean of `p` values by the running sum. -/
def slideMean (p : Nat) (x : Nat → R) (m : Nat) : R := (slideS x p (m + (p - 1)) + x (m + (p - 1))) / ((p : Int) : R)

/-- The ring that is not assigned during the first `d` bars. -/
def late (d : Nat) (y : Nat → R) (n : Nat) : R := if n < d then c! 0 else y (n - d)

theorem devInto_ok (med : R) : ∀ (a s : List R), a.length = s.length →
    devInto med a s = .ok (s.map fun v => CMath.fabs (v - med))
  | [], [], _ => rfl
  | _ :: a, v :: s, h => by
    rw [devInto, devInto_ok med a s (by simpa using h)]
    rfl

end Any

section Order
variable {R : Type} [Field R] [LinearOrder R] [IsStrictOrderedRing R] [CMath R]

theorem msSort_rank (l : List R) : msSort l = rank l := by
  have key : ∀ l l0 : List R, l.foldl msInsert (rank l0) = rank (l0 ++ l) := by
    intro l
    induction l with
    | nil => intro l0; simp
    | cons v l ih => intro l0; rw [List.foldl_cons, msInsert_rank, ih]; simp
  have := key l []
  simpa [msSort, rank] using this

/-- The window before the `m`-th insertion: the last `2k` values, fewer at first. -/
def winR (k : Nat) (y : Nat → R) (m : Nat) : List R := rank (seg y (m - 2 * k) (min m (2 * k)))

theorem winR_fill (k : Nat) (y : Nat → R) (m : Nat) (h : m < 2 * k) : msInsert (winR k y m) (y m) = winR k y (m + 1) := by
  unfold winR
  rw [msInsert_rank, show m - 2 * k = 0 by omega, show m + 1 - 2 * k = 0 by omega, show min m (2 * k) = m by omega,
    show min (m + 1) (2 * k) = m + 1 by omega, seg_snoc, Nat.zero_add]

theorem winR_full (k : Nat) (y : Nat → R) (t : Nat) :
    msInsert (winR k y (2 * k + t)) (y (2 * k + t)) = rank (seg y t (2 * k + 1)) := by
  unfold winR
  rw [msInsert_rank, show 2 * k + t - 2 * k = t by omega, show min (2 * k + t) (2 * k) = 2 * k by omega, seg_snoc, Nat.add_comm t]

theorem winR_drop (k : Nat) (y : Nat → R) (t : Nat) :
    msErase (rank (seg y t (2 * k + 1))) (y t) = .ok (winR k y (2 * k + t + 1)) := by
  unfold winR
  rw [show 2 * k + t + 1 - 2 * k = t + 1 by omega, show min (2 * k + t + 1) (2 * k) = 2 * k by omega, seg_succ, msErase_rank]

/-- The deviations from the median, sorted. -/
def devsOf (k : Nat) (y : Nat → R) (t : Nat) : List R :=
  rank ((rank (seg y t (2 * k + 1))).map fun v => CMath.fabs (v - rmfMid k y t))

theorem devsOf_length (k : Nat) (y : Nat → R) (t : Nat) : (devsOf k y t).length = 2 * k + 1 := by
  unfold devsOf
  rw [(rank_perm _).length_eq, List.length_map, (rank_perm _).length_eq, length_seg]

/-- The median deviation. -/
def madMid (k : Nat) (y : Nat → R) (t : Nat) : R := (devsOf k y t).getD k (c! 0)

theorem rd_mid (l : List R) (k : Nat) (h : k < l.length) : rd l (k : Int) = .ok (l.getD k (c! 0)) := by
  unfold rd
  rw [dif_pos ⟨by omega, by omega⟩]
  simp [List.getD_eq_getElem?_getD, List.getElem?_eq_getElem h]

/-- The contents of `a` before the `m`-th insertion. -/
def devsBuf (k : Nat) (y : Nat → R) (m : Nat) : List R :=
  if m ≤ 2 * k then List.replicate (2 * k + 1) (c! 0) else devsOf k y (m - 2 * k - 1)

theorem devsBuf_length (k : Nat) (y : Nat → R) (m : Nat) : (devsBuf k y m).length = 2 * k + 1 := by
  unfold devsBuf
  split
  · simp
  · exact devsOf_length ..

theorem devsBuf_fill (k : Nat) (y : Nat → R) (m : Nat) (h : m < 2 * k) : devsBuf k y (m + 1) = devsBuf k y m := by
  unfold devsBuf
  rw [if_pos (by omega), if_pos (by omega)]

theorem devsBuf_full (k : Nat) (y : Nat → R) (t : Nat) : devsBuf k y (2 * k + t + 1) = devsOf k y t := by
  unfold devsBuf
  rw [if_neg (by omega)]
  congr 1; omega

/-- hf: the newest value, or the median if the value is too far from it. -/
def hfPick (k : Nat) (thr : R) (y : Nat → R) (t : Nat) : R :=
  if CMath.fabs (y (2 * k + t) - rmfMid k y t) < hampelReach thr (madMid k y t) then y (2 * k + t) else rmfMid k y t

/-- hfema, hfsma: the value in the middle of the window, or the median if that is too far from it. -/
def hfxPick (k : Nat) (thr : R) (y : Nat → R) (t : Nat) : R :=
  if CMath.fabs (y (k + t) - rmfMid k y t) ≤ hampelReach thr (madMid k y t) then y (k + t) else rmfMid k y t

theorem hfAt_ok (k : Nat) (thr : R) (y : Nat → R) (t : Nat) (a : List R) (ha : a.length = 2 * k + 1) :
    hfAt (k : Int) thr (rank (seg y t (2 * k + 1))) a (y (2 * k + t)) = .ok (hfPick k thr y t, devsOf k y t) := by
  unfold hfAt
  rw [msNth_rank, bind_ok, devInto_ok _ _ _ (by rw [ha, (rank_perm _).length_eq, length_seg]), bind_ok, msSort_rank]
  have : rd (devsOf k y t) (k : Int) = .ok (madMid k y t) := rd_mid _ _ (by rw [devsOf_length]; omega)
  unfold devsOf at this
  simp only [this, bind_ok]
  rfl

theorem hfxAt_ok (k : Nat) (thr : R) (y : Nat → R) (t : Nat) (a : List R) (ha : a.length = 2 * k + 1) (ring : Ring R)
    (hr : ring.get (k : Int) = .ok (y (k + t))) :
    hfxAt (k : Int) thr (rank (seg y t (2 * k + 1))) a ring = .ok (hfxPick k thr y t, devsOf k y t) := by
  unfold hfxAt
  rw [msNth_rank, bind_ok, devInto_ok _ _ _ (by rw [ha, (rank_perm _).length_eq, length_seg]), bind_ok, msSort_rank]
  have : rd (devsOf k y t) (k : Int) = .ok (madMid k y t) := rd_mid _ _ (by rw [devsOf_length]; omega)
  unfold devsOf at this
  simp only [this, bind_ok, hr]
  rfl

/-! ### hf -/

theorem hfStart_ok {o : Nat → R} {k : Nat} (hc : toInt (o 0) = .ok (k : Int)) (hb : 2 * k + 1 ≤ 2147483647) :
    hfStart o = .ok ((2 * k : Nat) : Int) := by
  unfold hfStart
  rw [hc, bind_ok, i32_ok _ (by omega) (by omega)]
  rfl

theorem hf_run (o : Nat → R) (k : Nat) (hc : toInt (o 0) = .ok (k : Int)) (hk : 1 ≤ k) (hb : 2 * k + 1 ≤ 2147483647) (ht : 0 ≤ o 1) :
    Computes hfBatch o (2 * k) (hfPick k (o 1)) := by
  refine computes_of_loop2 (phs := hfBatchPhases (k : Int) (o 1)) (p0 := -((2 * k : Nat) : Int))
    (s0 := ⟨[], List.replicate (2 * k + 1) (c! 0)⟩) ?_ (fun xs => ?_)
    (fun x n => ⟨winR k x n, devsBuf k x n⟩) (fun x => ?_) ?_
  · intro xs
    unfold hfBatch
    rw [hc, bind_ok, if_neg (by omega), if_neg (by simpa using ht), hfStart_ok hc hb, bind_ok, i32_ok _ (by omega) (by omega)]
    rfl
  · apply Phases.Ordered.from
    phases_ordered hfBatchPhases
  · simp [winR, seg, rank, devsBuf]
  · intro x N n hn
    simp only [barStep, hfBatchPhases, List.find?]
    by_cases h : n < 2 * k
    · rw [decide_eq_true (by omega), if_pos h]
      simp only [pure_eq, winR_fill k x n h, devsBuf_fill k x n h]
    · rw [decide_eq_false (by omega), if_neg h]
      obtain ⟨t, rfl⟩ : ∃ t, n = 2 * k + t := ⟨n - 2 * k, by omega⟩
      simp only [winR_full, hfAt_ok k (o 1) x t _ (devsBuf_length ..), bind_ok, pure_eq]
      rw [rd_at t (by omega) (by omega), bind_ok, winR_drop, bind_ok, devsBuf_full, show 2 * k + t - 2 * k = t by omega]

theorem hfRef_run (o : Nat → R) (k : Nat) (hc : toInt (o 0) = .ok (k : Int)) (hk : 1 ≤ k) (hb : 2 * k + 1 ≤ 2147483647) (ht : 0 ≤ o 1) :
    Computes hfRef o (2 * k) (hfPick k (o 1)) := by
  refine computes_of_loop2 (phs := hfRefPhases (k : Int) (o 1)) (p0 := -((2 * k : Nat) : Int)) (s0 := []) ?_ (fun xs => ?_)
    (fun x n => winR k x n) (fun x => ?_) ?_
  · intro xs
    unfold hfRef
    rw [hc, bind_ok, if_neg (by omega), if_neg (by simpa using ht), hfStart_ok hc hb, bind_ok, i32_ok _ (by omega) (by omega)]
    rfl
  · apply Phases.Ordered.from
    phases_ordered hfRefPhases
  · simp [winR, seg, rank]
  · intro x N n hn
    simp only [barStep, hfRefPhases, List.find?]
    by_cases h : n < 2 * k
    · rw [decide_eq_true (by omega), if_pos h]
      simp only [pure_eq, winR_fill k x n h]
    · rw [decide_eq_false (by omega), if_neg h]
      obtain ⟨t, rfl⟩ : ∃ t, n = 2 * k + t := ⟨n - 2 * k, by omega⟩
      have hd : rd (devsOf k x t) (k : Int) = .ok (madMid k x t) := rd_mid _ _ (by rw [devsOf_length]; omega)
      unfold devsOf at hd
      simp only [winR_full, msNth_rank, msSort_rank, hd, bind_ok, pure_eq]
      rw [rd_at t (by omega) (by omega), bind_ok, winR_drop, bind_ok, show 2 * k + t - 2 * k = t by omega]
      rfl

theorem hf_stream_run (o : Nat → R) (k : Nat) (hc : toInt (o 0) = .ok (k : Int)) (hk : 1 ≤ k) (hb : 2 * k + 1 ≤ 2147483647) (ht : 0 ≤ o 1) :
    (hf (R := R)).StreamComputes o (2 * k) (hfPick k (o 1)) := by
  refine streamComputes_traj (I := hf) (k := (((k : Int), o 1) : Int × R))
    (s0 := (⟨Ring.after (fun _ => c! 0) (2 * k + 1) 0, [], List.replicate (2 * k + 1) (c! 0)⟩ : HfS R)) ?_ (hfPhases_ordered _)
    (fun x n => (⟨Ring.after x (2 * k + 1) n, winR k x n, devsBuf k x n⟩ : HfS R)) (fun x => ?_) ?_
  · simp only [hf, hfNew]
    rw [hc, bind_ok, if_neg (by omega), if_neg (by simpa using ht), hfStart_ok hc hb, bind_ok, i32_ok _ (by omega) (by omega), bind_ok,
      show ((2 * k : Nat) : Int) + 1 = ((2 * k + 1 : Nat) : Int) by omega, Ring.make_after (fun _ => c! 0) _ (by omega), bind_ok]
    rfl
  · simp [winR, seg, rank, devsBuf, Ring.after]; rfl
  · intro x n
    simp only [hf, barStep, hfPhases, List.find?]
    by_cases h : n < 2 * k
    · rw [decide_eq_true (by omega), if_pos h]
      simp only [Ring.after_set x (2 * k + 1) (by omega) n _ rfl, bind_ok, pure_eq, winR_fill k x n h, devsBuf_fill k x n h, Ring.now_step]
    · rw [decide_eq_false (by omega), if_neg h]
      obtain ⟨t, rfl⟩ : ∃ t, n = 2 * k + t := ⟨n - 2 * k, by omega⟩
      simp only [Ring.after_set x (2 * k + 1) (by omega) (2 * k + t) _ rfl, winR_full, hfAt_ok k (o 1) x t _ (devsBuf_length ..), bind_ok, pure_eq]
      rw [Ring.now_get x (2 * k + 1) (2 * k + t) _ (2 * k) (by omega) (by omega) (by omega), bind_ok, show 2 * k + t - 2 * k = t by omega, winR_drop,
        bind_ok, devsBuf_full, Ring.now_step]

/-! ### The reference loop -/

theorem hampelRef_run (k : Nat) (thr : R) (y : Nat → R) (N : Nat) (hi cap : Int) (hhi : hi = (N : Int)) (hcap : cap = (N : Int) - (2 * k : Nat)) :
    hampelRefLoop (k : Int) thr hi cap (pre y N) = .ok (pre (hfxPick k thr y) (N - 2 * k)) := by
  subst hhi hcap
  unfold hampelRefLoop
  by_cases hN : N ≤ 2 * k
  · rw [forUp_empty (by omega), show N - 2 * k = 0 by omega]; rfl
  · rw [show 2 * (k : Int) = ((2 * k : Nat) : Int) by omega,
      show ([] : List R) = (fun n => pre (hfxPick k thr y) (n - 2 * k)) (2 * k) by simp [pre]]
    refine forUp_nat (fun n => pre (hfxPick k thr y) (n - 2 * k)) (by omega) ?_
    · intro n h1 h2
      obtain ⟨t, rfl⟩ : ∃ t, n = 2 * k + t := ⟨n - 2 * k, by omega⟩
      rw [show (fun n => pre (hfxPick k thr y) (n - 2 * k)) (2 * k) = ([] : List R) by simp [pre]]
      have hin : forUp 0 (((2 * k : Nat) : Int) + 1) ([] : List R) (fun j data => do
          return data ++ [← rd (pre y N) (((2 * k + t : Nat) : Int) - ((2 * k : Nat) : Int) + j)]) = .ok (seg y t (2 * k + 1)) := by
        have := forUp_nat (f := fun (j : Int) (data : List R) => (do
          return data ++ [← rd (pre y N) (((2 * k + t : Nat) : Int) - ((2 * k : Nat) : Int) + j)] : M (List R))) (a := 0) (b := 2 * k + 1) (fun j => seg y t j) (by omega) ?_
        · push_cast at this ⊢; exact this
        · intro j _ hj
          rw [rd_at (t + j) (by omega) (by omega), bind_ok, seg_snoc]
          rfl
      dsimp only
      rw [hin, bind_ok]
      have hd : rd (devsOf k y t) (k : Int) = .ok (madMid k y t) := rd_mid _ _ (by rw [devsOf_length]; omega)
      unfold devsOf at hd
      have hm : rd (rank (seg y t (2 * k + 1))) (k : Int) = .ok (rmfMid k y t) :=
        rd_mid _ _ (by rw [(rank_perm _).length_eq, length_seg]; omega)
      simp only [msSort_rank, hm, bind_ok, hd]
      rw [rd_at (k + t) (by omega) (by omega), bind_ok, show 2 * k + t + 1 - 2 * k = t + 1 by omega, show 2 * k + t - 2 * k = t by omega]
      exact wr_pre _ _ t _ (by omega) rfl

/-! ### hfema -/

theorem hfemaStart_ok {o : Nat → R} {k : Nat} (hc : toInt (o 1) = .ok (k : Int)) (hb : 2 * k + 1 ≤ 2147483647) :
    hfemaStart o = .ok ((2 * k : Nat) : Int) := by
  unfold hfemaStart
  rw [hc, bind_ok, i32_ok _ (by omega) (by omega)]
  rfl

theorem hfxBad_false {o : Nat → R} {p k : Nat} (hp : 1 ≤ p) (hk : 1 ≤ k) (ht : 0 ≤ o 2) : hfxBad o (p : Int) (k : Int) = false := by
  simp [hfxBad, ht]; omega

def hfemaTraj (e0 : Option R) (k : Nat) (d : R) (x : Nat → R) (n : Nat) : HfemaS R :=
  ⟨if n = 0 then e0 else some (emaDiv d x (n - 1)), Ring.after (emaDiv d x) (2 * k + 1) n, winR k (emaDiv d x) n, devsBuf k (emaDiv d x) n⟩

theorem hfema_step (e0 : Option R) (k : Nat) (hk : 1 ≤ k) (thr d : R) (x : Nat → R) (n : Nat) :
    barStep (hfemaPhases ⟨(k : Int), thr, d⟩) (-((2 * k : Nat) : Int) + n) (x n) (hfemaTraj e0 k d x n) =
      .ok (hfemaTraj e0 k d x (n + 1), if n < 2 * k then [] else [hfxPick k thr (emaDiv d x) (n - 2 * k)]) := by
  simp only [barStep, hfemaPhases, List.find?]
  cases n with
  | zero =>
    rw [decide_eq_true (by omega), if_pos (by omega)]
    have hs : (Ring.after (emaDiv d x) (2 * k + 1) 0).set (x 0) = .ok (Ring.now (emaDiv d x) (2 * k + 1) 0) :=
      Ring.after_set (emaDiv d x) (2 * k + 1) (by omega) 0 (x 0) rfl
    have hf := winR_fill k (emaDiv d x) 0 (by omega)
    rw [show emaDiv d x 0 = x 0 from rfl] at hf
    simp only [hfemaTraj, hfemaPut, hs, bind_ok, pure_eq, hf, devsBuf_fill k (emaDiv d x) 0 (by omega), Ring.now_step]
    rfl
  | succ m =>
    rw [decide_eq_false (by omega)]
    dsimp only
    have he : (x (m + 1) - emaDiv d x m) * c! 2 / d + emaDiv d x m = emaDiv d x (m + 1) := rfl
    have hg : ∀ v, getV (if m + 1 = 0 then v else some (emaDiv d x (m + 1 - 1))) = .ok (emaDiv d x m) := by
      intro v; rw [if_neg (by omega)]; rfl
    by_cases h : m + 1 < 2 * k
    · rw [decide_eq_true (by omega), if_pos h]
      simp only [hfemaTraj, hfemaPut, hg, he, Ring.after_set (emaDiv d x) (2 * k + 1) (by omega) (m + 1) (emaDiv d x (m + 1)) rfl, bind_ok, pure_eq,
        winR_fill k (emaDiv d x) (m + 1) h, devsBuf_fill k (emaDiv d x) (m + 1) h, Ring.now_step]
      rfl
    · rw [decide_eq_false (by omega), if_neg h]
      obtain ⟨t, ht⟩ : ∃ t, m + 1 = 2 * k + t := ⟨m + 1 - 2 * k, by omega⟩
      have hr := Ring.now_get (emaDiv d x) (2 * k + 1) (m + 1) (k : Int) k rfl (by omega) (by omega)
      rw [show m + 1 - k = k + t by omega] at hr
      have hr2 := Ring.now_get (emaDiv d x) (2 * k + 1) (m + 1) (2 * (k : Int)) (2 * k) (by omega) (by omega) (by omega)
      rw [show m + 1 - 2 * k = t by omega] at hr2
      have hw := winR_full k (emaDiv d x) t
      rw [← ht] at hw
      simp only [hfemaTraj, hfemaPut, hg, he, Ring.after_set (emaDiv d x) (2 * k + 1) (by omega) (m + 1) (emaDiv d x (m + 1)) rfl, bind_ok, pure_eq,
        hw, hfxAt_ok k thr (emaDiv d x) t _ (devsBuf_length ..) _ hr, hr2, winR_drop]
      have hd := devsBuf_full k (emaDiv d x) t
      rw [← ht] at hd ⊢
      rw [hd, show m + 1 - 2 * k = t by omega, Ring.now_step]
      rfl

theorem hfema_run (o : Nat → R) (p k : Nat) (h0 : toInt (o 0) = .ok (p : Int)) (h1 : toInt (o 1) = .ok (k : Int)) (hp : 1 ≤ p) (hk : 1 ≤ k)
    (hb : 2 * k + 1 ≤ 2147483647) (ht : 0 ≤ o 2) : Computes hfemaBatch o (2 * k) (fun x => hfxPick k (o 2) (emaDiv (c! 1 + ((p : Int) : R)) x)) := by
  refine computes_of_loop (phs := hfemaPhases ⟨(k : Int), o 2, c! 1 + ((p : Int) : R)⟩) (p0 := -((2 * k : Nat) : Int))
    (s0 := (⟨none, Ring.after (fun _ => c! 0) (2 * k + 1) 0, [], List.replicate (2 * k + 1) (c! 0)⟩ : HfemaS R)) ?_
    ((hfemaPhases_ordered _).from _) (hfemaTraj none k (c! 1 + ((p : Int) : R))) (fun x => ?_) (fun x n => hfema_step none k hk _ _ x n)
  · intro xs
    unfold hfemaBatch
    rw [h0, bind_ok, h1, bind_ok, hfxBad_false hp hk ht, if_neg (by simp), hfemaStart_ok h1 hb, bind_ok, i32_ok _ (by omega) (by omega), bind_ok,
      show ((2 * k : Nat) : Int) + 1 = ((2 * k + 1 : Nat) : Int) by omega, Ring.make_after (fun _ => c! 0) _ (by omega), bind_ok]
    rfl
  · simp [hfemaTraj, winR, seg, rank, devsBuf, Ring.after]

theorem hfema_stream_run (o : Nat → R) (p k : Nat) (h0 : toInt (o 0) = .ok (p : Int)) (h1 : toInt (o 1) = .ok (k : Int)) (hp : 1 ≤ p) (hk : 1 ≤ k)
    (hb : 2 * k + 1 ≤ 2147483647) (ht : 0 ≤ o 2) :
    (hfema (R := R)).StreamComputes o (2 * k) (fun x => hfxPick k (o 2) (emaDiv (((p : Int) : R) + c! 1) x)) := by
  refine streamComputes_traj (I := hfema) (k := (⟨(k : Int), o 2, ((p : Int) : R) + c! 1⟩ : HfemaK R))
    (s0 := (⟨some (c! 0), Ring.after (fun _ => c! 0) (2 * k + 1) 0, [], List.replicate (2 * k + 1) (c! 0)⟩ : HfemaS R)) ?_
    (hfemaPhases_ordered _) (hfemaTraj (some (c! 0)) k (((p : Int) : R) + c! 1)) (fun x => ?_) (fun x n => hfema_step _ k hk _ _ x n)
  · simp only [hfema, hfemaNew]
    rw [h0, bind_ok, h1, bind_ok, hfxBad_false hp hk ht, if_neg (by simp), hfemaStart_ok h1 hb, bind_ok, i32_ok _ (by omega) (by omega), bind_ok,
      show ((2 * k : Nat) : Int) + 1 = ((2 * k + 1 : Nat) : Int) by omega, Ring.make_after (fun _ => c! 0) _ (by omega), bind_ok]
    rfl
  · simp [hfemaTraj, winR, seg, rank, devsBuf, Ring.after]; rfl

theorem hfemaRef_run (o : Nat → R) (p k : Nat) (h0 : toInt (o 0) = .ok (p : Int)) (h1 : toInt (o 1) = .ok (k : Int)) (hp : 1 ≤ p) (hk : 1 ≤ k)
    (hb : 2 * k + 1 ≤ 2147483647) (ht : 0 ≤ o 2) : Computes hfemaRef o (2 * k) (fun x => hfxPick k (o 2) (emaRec (emaPer p) x)) := by
  intro x N
  unfold hfemaRef
  rw [h0, bind_ok, h1, bind_ok, hfxBad_false hp hk ht, if_neg (by simp), ema_run o p h0 hp, bind_ok]
  dsimp only
  rw [hfemaStart_ok h1 hb, bind_ok, i32_ok _ (by omega) (by omega), bind_ok, length_pre, Nat.sub_zero,
    hampelRef_run k (o 2) _ N _ _ rfl rfl]
  rfl

/-! ### hfsma -/

theorem hfsmaStart_ok {o : Nat → R} {p k : Nat} (h0 : toInt (o 0) = .ok (p : Int)) (h1 : toInt (o 1) = .ok (k : Int)) (hp : 1 ≤ p)
    (hb : p - 1 + 2 * k ≤ 2147483647) : hfsmaStart o = .ok ((p - 1 + 2 * k : Nat) : Int) := by
  unfold hfsmaStart
  rw [h0, bind_ok, h1, bind_ok, i32_ok _ (by omega) (by omega), bind_ok, i32_ok _ (by omega) (by omega), bind_ok, i32_ok _ (by omega) (by omega)]
  congr 1; omega

theorem late_get (d : Nat) (y : Nat → R) (n : Nat) (h : d ≤ n) : late d y n = y (n - d) := if_neg (by omega)

def hfsmaTraj (p k : Nat) (x : Nat → R) (n : Nat) : HfsmaB R :=
  let y := slideMean p x
  ⟨slideS x p n, Ring.after (late (p - 1) y) (2 * k + 1) n, winR k y (n - (p - 1)), devsBuf k y (n - (p - 1))⟩

theorem slideMean_at (p : Nat) (x : Nat → R) (m : Nat) : (slideS x p (p - 1 + m) + x (p - 1 + m)) / ((p : Int) : R) = slideMean p x m := by
  unfold slideMean; rw [Nat.add_comm]

theorem slideS_next (p : Nat) (x : Nat → R) (m : Nat) : slideS x p (p - 1 + m) + x (p - 1 + m) - x m = slideS x p (p - 1 + m + 1) := by
  rw [slideS, if_neg (by omega), show p - 1 + m - (p - 1) = m by omega]

theorem hfsma_run (o : Nat → R) (p k : Nat) (h0 : toInt (o 0) = .ok (p : Int)) (h1 : toInt (o 1) = .ok (k : Int)) (hp : 1 ≤ p) (hk : 1 ≤ k)
    (hb : 2 * k + 1 ≤ 2147483647) (hb2 : p - 1 + 2 * k ≤ 2147483647) (ht : 0 ≤ o 2) :
    Computes hfsmaBatch o (p - 1 + 2 * k) (fun x => hfxPick k (o 2) (slideMean p x)) := by
  refine computes_of_loop2 (phs := hfsmaBatchPhases (p : Int) (k : Int) (o 2)) (p0 := -((p - 1 + 2 * k : Nat) : Int))
    (s0 := (⟨c! 0, Ring.after (fun _ => c! 0) (2 * k + 1) 0, [], List.replicate (2 * k + 1) (c! 0)⟩ : HfsmaB R)) ?_ (fun xs => ?_)
    (hfsmaTraj p k) (fun x => ?_) ?_
  · intro xs
    unfold hfsmaBatch
    rw [h0, bind_ok, h1, bind_ok, hfxBad_false hp hk ht, if_neg (by simp), i32_ok (2 * (k : Int)) (by omega) (by omega), bind_ok,
      i32_ok _ (by omega) (by omega), bind_ok, hfsmaStart_ok h0 h1 hp hb2, bind_ok,
      show 2 * (k : Int) + 1 = ((2 * k + 1 : Nat) : Int) by omega, Ring.make_after (fun _ => c! 0) _ (by omega), bind_ok]
    rfl
  · apply Phases.Ordered.from
    phases_ordered hfsmaBatchPhases
  · simp [hfsmaTraj, winR, seg, rank, devsBuf, Ring.after, slideS]
  · intro x N n hn
    simp only [barStep, hfsmaBatchPhases, List.find?]
    by_cases h : n < p - 1
    · rw [decide_eq_true (by omega), if_pos (by omega)]
      simp only [hfsmaTraj, pure_eq]
      rw [Ring.after_skip (late (p - 1) (slideMean p x)) (2 * k + 1) n (fun j hj => if_pos (by omega)), show n - (p - 1) = 0 by omega, show n + 1 - (p - 1) = 0 by omega, slideS, if_pos h]
    · rw [decide_eq_false (by omega)]
      dsimp only
      obtain ⟨m, rfl⟩ : ∃ m, n = p - 1 + m := ⟨n - (p - 1), by omega⟩
      have e0 : p - 1 + m - (p - 1) = m := by omega
      have e1 : p - 1 + m + 1 - (p - 1) = m + 1 := by omega
      have hs := Ring.after_set (late (p - 1) (slideMean p x)) (2 * k + 1) (by omega) (p - 1 + m) (slideMean p x m)
        (by rw [late_get _ _ _ (by omega), e0])
      by_cases h2 : m < 2 * k
      · rw [decide_eq_true (by omega), if_pos (by omega)]
        simp only [hfsmaTraj, e0, e1, slideMean_at, hs, bind_ok, pure_eq]
        rw [rd_at m (by omega) (by omega), bind_ok, slideS_next, winR_fill k _ m h2, devsBuf_fill k _ m h2, Ring.now_step]
      · rw [decide_eq_false (by omega), if_neg (by omega)]
        obtain ⟨t, rfl⟩ : ∃ t, m = 2 * k + t := ⟨m - 2 * k, by omega⟩
        have hr := Ring.now_get (late (p - 1) (slideMean p x)) (2 * k + 1) (p - 1 + (2 * k + t)) (k : Int) k rfl (by omega) (by omega)
        rw [late_get _ _ _ (by omega), show p - 1 + (2 * k + t) - k - (p - 1) = k + t by omega] at hr
        have hr2 := Ring.now_get (late (p - 1) (slideMean p x)) (2 * k + 1) (p - 1 + (2 * k + t)) (2 * (k : Int)) (2 * k) (by omega) (by omega) (by omega)
        rw [late_get _ _ _ (by omega), show p - 1 + (2 * k + t) - 2 * k - (p - 1) = t by omega] at hr2
        simp only [hfsmaTraj, e0, e1, slideMean_at, hs, bind_ok, pure_eq, winR_full,
          hfxAt_ok k (o 2) (slideMean p x) t _ (devsBuf_length ..) _ hr, hr2, winR_drop]
        rw [rd_at (2 * k + t) (by omega) (by omega), bind_ok, slideS_next, devsBuf_full, Ring.now_step,
          show p - 1 + (2 * k + t) - (p - 1 + 2 * k) = t by omega]

theorem hfsma_stream_run (o : Nat → R) (p k : Nat) (h0 : toInt (o 0) = .ok (p : Int)) (h1 : toInt (o 1) = .ok (k : Int)) (hp : 1 ≤ p) (hk : 1 ≤ k)
    (hb : 2 * k + 1 ≤ 2147483647) (hpk : p ≤ 2 * k + 1) (hb2 : p - 1 + 2 * k ≤ 2147483647) (ht : 0 ≤ o 2) :
    (hfsma (R := R)).StreamComputes o (p - 1 + 2 * k) (fun x => hfxPick k (o 2) (slideMean p x)) := by
  refine streamComputes_traj (I := hfsma) (k := (((p : Int), (k : Int), o 2) : Int × Int × R))
    (s0 := (⟨c! 0, Ring.after (fun _ => c! 0) (2 * k + 1) 0, Ring.after (fun _ => c! 0) (2 * k + 1) 0, [], List.replicate (2 * k + 1) (c! 0)⟩ : HfsmaS R))
    ?_ (hfsmaPhases_ordered _)
    (fun x n => (⟨slideS x p n, Ring.after x (2 * k + 1) n, Ring.after (late (p - 1) (slideMean p x)) (2 * k + 1) n,
      winR k (slideMean p x) (n - (p - 1)), devsBuf k (slideMean p x) (n - (p - 1))⟩ : HfsmaS R)) (fun x => ?_) ?_
  · simp only [hfsma, hfsmaNew]
    rw [h0, bind_ok, h1, bind_ok, hfxBad_false hp hk ht, if_neg (by simp), hfsmaStart_ok h0 h1 hp hb2, bind_ok,
      i32_ok (2 * (k : Int)) (by omega) (by omega), bind_ok,
      i32_ok _ (by omega) (by omega), bind_ok, show 2 * (k : Int) + 1 = ((2 * k + 1 : Nat) : Int) by omega,
      Ring.make_after (fun _ => c! 0) _ (by omega), bind_ok, bind_ok]
    rfl
  · simp [winR, seg, rank, devsBuf, Ring.after, slideS]; rfl
  · intro x n
    simp only [hfsma, barStep, hfsmaPhases, List.find?]
    have hsx := Ring.after_set x (2 * k + 1) (by omega) n (x n) rfl
    by_cases h : n < p - 1
    · rw [decide_eq_true (by omega), if_pos (by omega)]
      simp only [hsx, bind_ok, pure_eq, Ring.now_step]
      rw [Ring.after_skip (late (p - 1) (slideMean p x)) (2 * k + 1) n (fun j hj => if_pos (by omega)), show n - (p - 1) = 0 by omega, show n + 1 - (p - 1) = 0 by omega, slideS, if_pos h]
    · rw [decide_eq_false (by omega)]
      dsimp only
      obtain ⟨m, rfl⟩ : ∃ m, n = p - 1 + m := ⟨n - (p - 1), by omega⟩
      have e0 : p - 1 + m - (p - 1) = m := by omega
      have e1 : p - 1 + m + 1 - (p - 1) = m + 1 := by omega
      have hs := Ring.after_set (late (p - 1) (slideMean p x)) (2 * k + 1) (by omega) (p - 1 + m) (slideMean p x m)
        (by rw [late_get _ _ _ (by omega), e0])
      have hg := Ring.now_get x (2 * k + 1) (p - 1 + m) ((p : Int) - 1) (p - 1) (by omega) (by omega) (by omega)
      rw [e0] at hg
      by_cases h2 : m < 2 * k
      · rw [decide_eq_true (by omega), if_pos (by omega)]
        simp only [hsx, e0, e1, slideMean_at, hs, bind_ok, pure_eq, hg]
        rw [slideS_next, winR_fill k _ m h2, devsBuf_fill k _ m h2, Ring.now_step, Ring.now_step]
      · rw [decide_eq_false (by omega), if_neg (by omega)]
        obtain ⟨t, rfl⟩ : ∃ t, m = 2 * k + t := ⟨m - 2 * k, by omega⟩
        have hr := Ring.now_get (late (p - 1) (slideMean p x)) (2 * k + 1) (p - 1 + (2 * k + t)) (k : Int) k rfl (by omega) (by omega)
        rw [late_get _ _ _ (by omega), show p - 1 + (2 * k + t) - k - (p - 1) = k + t by omega] at hr
        have hr2 := Ring.now_get (late (p - 1) (slideMean p x)) (2 * k + 1) (p - 1 + (2 * k + t)) (2 * (k : Int)) (2 * k) (by omega) (by omega) (by omega)
        rw [late_get _ _ _ (by omega), show p - 1 + (2 * k + t) - 2 * k - (p - 1) = t by omega] at hr2
        simp only [hsx, e0, e1, slideMean_at, hs, bind_ok, pure_eq, winR_full, hg,
          hfxAt_ok k (o 2) (slideMean p x) t _ (devsBuf_length ..) _ hr, hr2, winR_drop]
        rw [slideS_next, devsBuf_full, Ring.now_step, Ring.now_step, show p - 1 + (2 * k + t) - (p - 1 + 2 * k) = t by omega]

theorem hfsmaRef_run (o : Nat → R) (p k : Nat) (h0 : toInt (o 0) = .ok (p : Int)) (h1 : toInt (o 1) = .ok (k : Int)) (hp : 1 ≤ p) (hk : 1 ≤ k)
    (hb : 2 * k + 1 ≤ 2147483647) (hb2 : p - 1 + 2 * k ≤ 2147483647) (ht : 0 ≤ o 2) (y : (Nat → R) → Nat → R)
    (hy : Computes smaBatch o (p - 1) y) : Computes hfsmaRef o (p - 1 + 2 * k) (fun x => hfxPick k (o 2) (y x)) := by
  intro x N
  unfold hfsmaRef
  rw [h0, bind_ok, h1, bind_ok, hfxBad_false hp hk ht, if_neg (by simp), hy, bind_ok]
  dsimp only
  rw [i32_ok (2 * (k : Int)) (by omega) (by omega), bind_ok, i32_ok _ (by omega) (by omega), bind_ok, length_pre, smaStart_ok h0, bind_ok,
    hfsmaStart_ok h0 h1 hp hb2, bind_ok]
  by_cases hN : N ≤ p - 1
  · have : hampelRefLoop (k : Int) (o 2) ((N : Int) - ((p : Int) - 1)) ((N : Int) - ((p - 1 + 2 * k : Nat) : Int)) (pre (y x) (N - (p - 1))) = .ok [] := by
      unfold hampelRefLoop; rw [forUp_empty (by omega)]
    rw [this, show N - (p - 1 + 2 * k) = 0 by omega]; rfl
  · rw [hampelRef_run k (o 2) _ (N - (p - 1)) _ _ (by omega) (by omega), show N - (p - 1) - 2 * k = N - (p - 1 + 2 * k) by omega]
    rfl

end Order
end Verif
