/- Loop lemmas of hwma and rmf. -/
import Verif.Model.Rank
import Verif.Proof.Filters
import Verif.Proof.Loop
import Verif.Proof.Flow
import Mathlib.Data.List.Sort
import Mathlib.Algebra.Order.Field.Basic

set_option linter.unusedSectionVars false
set_option linter.unusedSimpArgs false
set_option linter.unusedVariables false

namespace Verif

section Any
variable {R : Type} [Num R]

/-! ### hwma -/

/-- The weight of the price `j` bars back, in thousandths, in the row for `p` bars. -/
def hwmaW (p j : Nat) : Int := ((hwmaTable[p - 7]?).bind fun r => r[12 - j]?).getD 0

def hwmaSum (p : Nat) (x : Nat → R) (i : Nat) : Nat → R
  | 0 => c! 0
  | m + 1 => hwmaSum p x i m + ((hwmaW p m : Int) : R) / c! 1000 * x (i - m)

def hwmaVal (p : Nat) (x : Nat → R) (t : Nat) : R := hwmaSum p x (p - 1 + t) p

theorem hwma_row (p : Nat) (h7 : 7 ≤ p) (h13 : p ≤ 13) : ∃ row, hwmaRow ((p : Int) - 7) = .ok row ∧
    ∀ j : Nat, j ≤ 12 → (hwmaC row (12 - (j : Int)) : M R) = .ok (((hwmaW p j : Int) : R) / c! 1000) := by
  obtain rfl | rfl | rfl | rfl | rfl | rfl | rfl : p = 7 ∨ p = 8 ∨ p = 9 ∨ p = 10 ∨ p = 11 ∨ p = 12 ∨ p = 13 := by omega
  all_goals
    refine ⟨_, rfl, fun j hj => ?_⟩
    obtain rfl | rfl | rfl | rfl | rfl | rfl | rfl | rfl | rfl | rfl | rfl | rfl | rfl : j = 0 ∨ j = 1 ∨ j = 2 ∨ j = 3 ∨ j = 4 ∨ j = 5 ∨
      j = 6 ∨ j = 7 ∨ j = 8 ∨ j = 9 ∨ j = 10 ∨ j = 11 ∨ j = 12 := by omega
    all_goals rfl

theorem hwmaStart_ok {o : Nat → R} {p : Nat} (hc : toInt (o 0) = .ok (p : Int)) (hp : 1 ≤ p) :
    hwmaStart o = .ok ((p - 1 : Nat) : Int) := by
  unfold hwmaStart
  have := toInt_range hc
  rw [hc, bind_ok, i32_ok _ (by omega) (by omega)]
  congr 1; omega

theorem hwmaLoop_run (p : Nat) (h7 : 7 ≤ p) (h13 : p ≤ 13) (row : List Int)
    (hrow : ∀ j : Nat, j ≤ 12 → (hwmaC row (12 - (j : Int)) : M R) = .ok (((hwmaW p j : Int) : R) / c! 1000)) (x : Nat → R) (N : Nat) :
    hwmaLoop row p ((N : Int) - ((p - 1 : Nat) : Int)) (pre x N) = .ok (pre (hwmaVal p x) (N - (p - 1))) := by
  unfold hwmaLoop
  rw [length_pre]
  by_cases hN : N ≤ p - 1
  · rw [forUp_empty (by omega), show N - (p - 1) = 0 by omega]; rfl
  rw [show (p : Int) - 1 = ((p - 1 : Nat) : Int) by omega]
  have h := forUp_nat (a := p - 1) (b := N) (fun n => pre (hwmaVal p x) (n - (p - 1))) (by omega)
    (f := fun i out => do
      let filt ← forUp 0 (p : Int) (c! 0 : R) fun j filt => do
        return filt + (← hwmaC row (12 - j)) * (← rd (pre x N) (i - j))
      wr ((N : Int) - ((p - 1 : Nat) : Int)) out filt) ?_
  · simpa using h
  intro n h1 h2
  refine forUp_bind 0 p (fun m => hwmaSum p x n m) rfl rfl rfl (by omega) ?_ ?_
  · intro j _ hj
    rw [hrow j (by omega), bind_ok, rd_at (n - j) (by omega) (by omega), bind_ok]
    rfl
  · obtain ⟨t, rfl⟩ : ∃ t, n = p - 1 + t := ⟨n - (p - 1), by omega⟩
    rw [show p - 1 + t - (p - 1) = t by omega, show p - 1 + t + 1 - (p - 1) = t + 1 by omega]
    exact wr_pre _ (hwmaVal p x) t _ (by omega) rfl

theorem hwma_run (o : Nat → R) (p : Nat) (hc : toInt (o 0) = .ok (p : Int)) (h7 : 7 ≤ p) (h13 : p ≤ 13) :
    Computes hwmaBatch o (p - 1) (hwmaVal p) := by
  intro x N
  obtain ⟨row, hr, hrow⟩ := hwma_row (R := R) p h7 h13
  unfold hwmaBatch
  rw [hc, bind_ok, i32_ok _ (by omega) (by omega), bind_ok, hr, bind_ok, if_neg (by omega), hwmaStart_ok hc (by omega), bind_ok, length_pre,
    hwmaLoop_run p h7 h13 row hrow, bind_ok]
  rfl

theorem hwmaRef_run (o : Nat → R) (p : Nat) (hc : toInt (o 0) = .ok (p : Int)) (h7 : 7 ≤ p) (h13 : p ≤ 13) :
    Computes hwmaRef o (p - 1) (hwmaVal p) := by
  intro x N
  obtain ⟨row, hr, hrow⟩ := hwma_row (R := R) p h7 h13
  unfold hwmaRef
  rw [hc, bind_ok, if_neg (by omega), i32_ok _ (by omega) (by omega), bind_ok, hr, bind_ok, hwmaStart_ok hc (by omega), bind_ok, length_pre,
    hwmaLoop_run p h7 h13 row hrow, bind_ok]
  rfl

/-- What the stream writes: always thirteen terms, zeros where there was no price yet. -/
def hwmaTerm (p : Nat) (x : Nat → R) (n j : Nat) : R :=
  ((hwmaW p j : Int) : R) / c! 1000 * (if j ≤ n then x (n - j) else c! 0)
def hwmaStr (p : Nat) (x : Nat → R) (n : Nat) : R :=
  hwmaTerm p x n 12 + hwmaTerm p x n 11 + hwmaTerm p x n 10 + hwmaTerm p x n 9 + hwmaTerm p x n 8 + hwmaTerm p x n 7 + hwmaTerm p x n 6 +
    hwmaTerm p x n 5 + hwmaTerm p x n 4 + hwmaTerm p x n 3 + hwmaTerm p x n 2 + hwmaTerm p x n 1 + ((hwmaW p 0 : Int) : R) / c! 1000 * x n

theorem hwmaPhases_ordered (k : Int) : Phases.Ordered (hwmaPhases (R := R) k) := by phases_ordered hwmaPhases

theorem hwma_stream_run (o : Nat → R) (p : Nat) (hc : toInt (o 0) = .ok (p : Int)) (h7 : 7 ≤ p) (h13 : p ≤ 13) :
    (hwma (R := R)).StreamComputes o (p - 1) (fun x t => hwmaStr p x (p - 1 + t)) := by
  obtain ⟨row, hr, hrow⟩ := hwma_row (R := R) p h7 h13
  refine streamComputes_traj (I := hwma) (k := (p : Int)) (s0 := Ring.after (fun _ => (c! 0 : R)) 13 0) ?_ (hwmaPhases_ordered _)
    (fun x n => Ring.after x 13 n) (fun x => rfl) (fun x n => ?_)
  · simp only [hwma, hwmaNew]
    rw [hc, bind_ok, if_neg (by omega), hwmaStart_ok hc (by omega), bind_ok, show (13 : Int) = ((13 : Nat) : Int) from rfl,
      Ring.make_after (fun _ => (c! 0 : R)) 13 (by omega), bind_ok]
    rfl
  · simp only [barStep, hwma, hwmaPhases, List.find?]
    by_cases hn : n < p - 1
    · rw [decide_eq_true (by omega), if_pos hn]
      simp only [Ring.after_set x 13 (by omega) n (x n) rfl, bind_ok, pure_eq, Ring.now_step]
    · rw [decide_eq_false (by omega), if_neg hn, show p - 1 + (n - (p - 1)) = n by omega]
      have c := fun (k : Nat) (hk : k ≤ 12) => hrow (12 - k) (by omega)
      have c' := fun (k : Nat) (hk : k ≤ 12) => (show (12 : Int) - ((12 - k : Nat) : Int) = (k : Int) by omega) ▸ c k hk
      simp only [i32_ok ((p : Int) - 7) (by omega) (by omega), bind_ok, hr, Ring.after_set x 13 (by omega) n (x n) rfl]
      have e0 := c' 0 (by omega)
      have e1 := c' 1 (by omega)
      have e2 := c' 2 (by omega)
      have e3 := c' 3 (by omega)
      have e4 := c' 4 (by omega)
      have e5 := c' 5 (by omega)
      have e6 := c' 6 (by omega)
      have e7 := c' 7 (by omega)
      have e8 := c' 8 (by omega)
      have e9 := c' 9 (by omega)
      have e10 := c' 10 (by omega)
      have e11 := c' 11 (by omega)
      have e12 := c' 12 (by omega)
      simp only [Nat.cast_ofNat, Nat.cast_zero, Nat.cast_one, Nat.sub_zero] at e0 e1 e2 e3 e4 e5 e6 e7 e8 e9 e10 e11 e12
      simp only [e0, e1, e2, e3, e4, e5, e6, e7, e8, e9, e10, e11, e12, bind_ok, Ring.now_get_any x 13 n 12 12 rfl (by omega),
        Ring.now_get_any x 13 n 11 11 rfl (by omega), Ring.now_get_any x 13 n 10 10 rfl (by omega),
        Ring.now_get_any x 13 n 9 9 rfl (by omega), Ring.now_get_any x 13 n 8 8 rfl (by omega),
        Ring.now_get_any x 13 n 7 7 rfl (by omega), Ring.now_get_any x 13 n 6 6 rfl (by omega),
        Ring.now_get_any x 13 n 5 5 rfl (by omega), Ring.now_get_any x 13 n 4 4 rfl (by omega),
        Ring.now_get_any x 13 n 3 3 rfl (by omega), Ring.now_get_any x 13 n 2 2 rfl (by omega),
        Ring.now_get_any x 13 n 1 1 rfl (by omega), Ring.now_cur x 13 (by omega) n, pure_eq, Ring.now_step]
      rfl

end Any

/-! ### rmf -/

section Order
variable {R : Type} [Field R] [LinearOrder R] [IsStrictOrderedRing R] [CMath R]

/-- The prices of a window in increasing order. -/
def rank (l : List R) : List R := l.insertionSort (· ≤ ·)

theorem rank_perm (l : List R) : (rank l).Perm l := List.perm_insertionSort _ l
theorem rank_sorted (l : List R) : (rank l).Pairwise (· ≤ ·) := List.pairwise_insertionSort _ l

theorem rank_unique {l s : List R} (hp : s.Perm l) (hs : s.Pairwise (· ≤ ·)) : s = rank l :=
  List.Perm.eq_of_pairwise (fun a b _ _ h1 h2 => le_antisymm h1 h2) hs (rank_sorted l) (hp.trans (rank_perm l).symm)

theorem msInsert_perm (s : List R) (v : R) : (msInsert s v).Perm (v :: s) := by
  induction s with
  | nil => exact List.Perm.refl _
  | cons a s ih =>
    unfold msInsert
    split
    · exact List.Perm.refl _
    · exact ((List.Perm.cons a ih).trans (List.Perm.swap v a s))

theorem msInsert_sorted (s : List R) (v : R) (hs : s.Pairwise (· ≤ ·)) : (msInsert s v).Pairwise (· ≤ ·) := by
  induction s with
  | nil => simp [msInsert]
  | cons a s ih =>
    have h := List.pairwise_cons.1 hs
    unfold msInsert
    split
    · rename_i hv
      refine List.pairwise_cons.2 ⟨fun b hb => ?_, hs⟩
      rcases List.mem_cons.1 hb with rfl | hb
      · exact hv.le
      · exact hv.le.trans (h.1 b hb)
    · rename_i hv
      refine List.pairwise_cons.2 ⟨fun b hb => ?_, ih h.2⟩
      rcases List.mem_cons.1 ((msInsert_perm s v).mem_iff.1 hb) with rfl | hb
      · exact not_lt.1 hv
      · exact h.1 b hb

theorem msErase_ok (s : List R) (v : R) (hs : s.Pairwise (· ≤ ·)) (hv : v ∈ s) :
    ∃ s', msErase s v = .ok s' ∧ s.Perm (v :: s') ∧ s'.Pairwise (· ≤ ·) := by
  induction s with
  | nil => simp at hv
  | cons a s ih =>
    have h := List.pairwise_cons.1 hs
    unfold msErase
    by_cases h1 : a < v
    · rw [if_pos h1]
      have hv' : v ∈ s := by
        rcases List.mem_cons.1 hv with rfl | hv
        · exact absurd h1 (lt_irrefl _)
        · exact hv
      obtain ⟨s', e, hp, hs'⟩ := ih h.2 hv'
      refine ⟨a :: s', by rw [e]; rfl, (List.Perm.cons a hp).trans (List.Perm.swap v a s'), List.pairwise_cons.2 ⟨fun b hb => ?_, hs'⟩⟩
      exact h.1 b (hp.mem_iff.2 (List.mem_cons_of_mem _ hb))
    · rw [if_neg h1]
      have hle : a ≤ v := by
        rcases List.mem_cons.1 hv with rfl | hv
        · exact le_rfl
        · exact h.1 v hv
      obtain rfl : a = v := le_antisymm hle (not_lt.1 h1)
      rw [if_neg (lt_irrefl _)]
      exact ⟨s, rfl, List.Perm.refl _, h.2⟩

theorem msInsert_rank (l : List R) (v : R) : msInsert (rank l) v = rank (l ++ [v]) := by
  refine rank_unique ((msInsert_perm _ v).trans ?_) (msInsert_sorted _ v (rank_sorted l))
  exact (List.Perm.cons v (rank_perm l)).trans (List.perm_append_singleton v l).symm

theorem msErase_rank (l : List R) (v : R) : msErase (rank (v :: l)) v = .ok (rank l) := by
  obtain ⟨s', e, hp, hs⟩ := msErase_ok (rank (v :: l)) v (rank_sorted _) ((rank_perm _).mem_iff.2 (by simp))
  rw [e]
  congr 1
  exact rank_unique (List.Perm.cons_inv (hp.symm.trans (rank_perm _))) hs

/-- The middle price of the `2k+1` bars from bar `t` on. -/
def rmfMid (k : Nat) (x : Nat → R) (t : Nat) : R := (rank (seg x t (2 * k + 1))).getD k (c! 0)

def rmfVal (k : Nat) (alpha : R) (x : Nat → R) : Nat → R
  | 0 => rmfMid k x 0
  | t + 1 => alpha * rmfMid k x (t + 1) + (c! 1 - alpha) * rmfVal k alpha x t

theorem msNth_rank (k : Nat) (x : Nat → R) (t : Nat) : msNth (rank (seg x t (2 * k + 1))) (k : Int) = .ok (rmfMid k x t) := by
  unfold msNth
  have hl : k < (rank (seg x t (2 * k + 1))).length := by
    rw [(rank_perm _).length_eq, length_seg]; omega
  rw [if_pos (by omega), Int.toNat_natCast, List.getElem?_eq_getElem hl]
  simp only [rmfMid, List.getD_eq_getElem?_getD, List.getElem?_eq_getElem hl, Option.getD_some]

/-- The state before bar `n`: the window without its newest bar. -/
def rmfTraj (v0 : Option R) (k : Nat) (alpha : R) (x : Nat → R) (n : Nat) : RmfS R :=
  let w := seg x (n - 2 * k) (min n (2 * k))
  ⟨if n ≤ 2 * k then v0 else some (rmfVal k alpha x (n - 2 * k - 1)), rank w, w⟩

theorem rmf_step (v0 : Option R) (k : Nat) (med alpha : R) (hm : toInt (med / c! 2) = .ok (k : Int)) (x : Nat → R) (n : Nat) :
    barStep (rmfPhases (med, alpha)) (-((2 * k : Nat) : Int) + n) (x n) (rmfTraj v0 k alpha x n) =
      .ok (rmfTraj v0 k alpha x (n + 1), if n < 2 * k then [] else [rmfVal k alpha x (n - 2 * k)]) := by
  simp only [barStep, rmfPhases, List.find?]
  by_cases hn : n < 2 * k
  · rw [decide_eq_true (by omega), if_pos hn]
    simp only [rmfTraj, pure_eq, msInsert_rank]
    rw [if_pos (by omega), if_pos (by omega), show n - 2 * k = 0 by omega, show n + 1 - 2 * k = 0 by omega,
      show min n (2 * k) = n by omega, show min (n + 1) (2 * k) = n + 1 by omega, seg_snoc, Nat.zero_add]
  · rw [decide_eq_false (by omega), if_neg hn]
    obtain ⟨t, rfl⟩ : ∃ t, n = 2 * k + t := ⟨n - 2 * k, by omega⟩
    have hw : seg x t (2 * k) ++ [x (2 * k + t)] = seg x t (2 * k + 1) := by rw [seg_snoc, Nat.add_comm t]
    have hw2 : seg x t (2 * k + 1) = x t :: seg x (t + 1) (2 * k) := seg_succ ..
    have hdrop : ∀ v, rmfDrop v (rank (seg x t (2 * k + 1))) (seg x t (2 * k + 1)) =
        .ok (⟨some v, rank (seg x (t + 1) (2 * k)), seg x (t + 1) (2 * k)⟩, [v]) := by
      intro v
      unfold rmfDrop
      rw [hw2]
      simp only [msErase_rank, bind_ok, pure_eq]
    have e1 : 2 * k + t - 2 * k = t := by omega
    have e2 : 2 * k + t + 1 - 2 * k = t + 1 := by omega
    have e3 : min (2 * k + t) (2 * k) = 2 * k := by omega
    have e4 : min (2 * k + t + 1) (2 * k) = 2 * k := by omega
    cases t with
    | zero =>
      rw [decide_eq_true (by omega)]
      simp only [rmfTraj, msInsert_rank, e1, e2, e3, e4, hw, hm, bind_ok, msNth_rank, hdrop]
      rw [if_neg (by omega)]
      rfl
    | succ t =>
      rw [decide_eq_false (by omega)]
      simp only [rmfTraj, msInsert_rank, e1, e2, e3, e4, hw, hm, bind_ok, msNth_rank, hdrop]
      rw [if_neg (by omega), if_neg (by omega)]
      simp only [getV, bind_ok, hdrop]
      rfl

theorem rmfPhases_ordered (k : Nat) (c : R × R) : Phases.OrderedFrom (-((k : Nat) : Int)) (rmfPhases c) := by
  refine ⟨?_, fun p _ => ⟨_, List.mem_cons_of_mem _ (List.mem_cons_of_mem _ (List.mem_cons_self ..)), rfl⟩⟩
  simp only [rmfPhases, Phases.Leaves, decide_eq_false_iff_not]
  intro p _ hp
  refine ⟨by omega, fun q _ hq => ⟨by omega, fun r _ hr => by simp at hr⟩⟩

theorem rmf_run (o : Nat → R) (k : Nat) (hbad : rmfBad o = .ok false) (hstart : rmfStart o = .ok ((2 * k : Nat) : Int))
    (hm : toInt (o 1 / c! 2) = .ok (k : Int)) : Computes rmfBatch o (2 * k) (rmfVal k (rmfAlpha (o 0))) := by
  refine computes_of_loop (phs := rmfPhases (o 1, rmfAlpha (o 0))) (p0 := -((2 * k : Nat) : Int)) (s0 := ⟨none, [], []⟩) ?_
    (rmfPhases_ordered _ _) (rmfTraj none k (rmfAlpha (o 0))) (fun x => ?_) (fun x n => rmf_step none k _ _ hm x n)
  · intro xs
    unfold rmfBatch
    rw [hbad, bind_ok, hstart]
    rfl
  · simp [rmfTraj, seg, rank]

theorem rmf_stream_run (o : Nat → R) (k : Nat) (hbad : rmfBad o = .ok false) (hstart : rmfStart o = .ok ((2 * k : Nat) : Int))
    (hm : toInt (o 1 / c! 2) = .ok (k : Int)) : (rmf (R := R)).StreamComputes o (2 * k) (rmfVal k (rmfAlpha (o 0))) := by
  refine streamComputes_traj' (I := rmf) (k := ((o 1, rmfAlpha (o 0)) : R × R)) (s0 := (⟨some (c! 0), [], []⟩ : RmfS R)) ?_
    (rmfPhases_ordered _ _) (rmfTraj (some (c! 0)) k (rmfAlpha (o 0))) (fun x => ?_) (fun x n => rmf_step _ k _ _ hm x n)
  · simp only [rmf, rmfNew]
    rw [hbad, bind_ok, hstart]
    rfl
  · simp [rmfTraj, seg, rank]; rfl

end Order
end Verif
