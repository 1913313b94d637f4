/- trima, hma, kst: runs in any arithmetic (helper lemmas). -/
import Verif.Model.Weighted
import Verif.Proof.Window
import Verif.Proof.TiBuf

namespace Verif
set_option linter.unusedSectionVars false
set_option linter.unusedSimpArgs false
set_option linter.unnecessarySeqFocus false
variable {R : Type} [Num R]

/-- `lead_period` of trima. -/
def triLead (p : Nat) : Nat := if p % 2 = 1 then p / 2 else p / 2 - 1
/-- The divisor of trima. -/
def triDen (p : Nat) : Nat := if p % 2 = 1 then (p / 2 + 1) * (p / 2 + 1) else (p / 2 + 1) * (p / 2)

/-- weight_sum, lead_sum, trail_sum of trima before bar `i`. -/
def trimaSt (p : Nat) (x : Nat → R) : Nat → R × R × R
  | 0 => (c! 0, c! 0, c! 0)
  | i + 1 =>
    let s := trimaSt p x i
    if i < p - 1 then
      (s.1 + x i * ((min ((i : Int) + 1) (p - i) : Int) : R),
       if p - triLead p < i + 1 then s.2.1 + x i else s.2.1,
       if i + 1 ≤ triLead p + 1 then s.2.2 + x i else s.2.2)
    else
      (s.1 + x i + (s.2.1 + x i) - s.2.2, s.2.1 + x i - x (i - triLead p + 1),
       s.2.2 + x (i - (p - 1) + triLead p + 1) - x (i - (p - 1)))

def trimaVal (p : Nat) (x : Nat → R) (j : Nat) : R :=
  ((trimaSt p x (j + (p - 1))).1 + x (j + (p - 1))) * (c! 1 / (((triDen p : Nat) : Int) : R))

theorem trima_run (o : Nat → R) (p : Nat) (hc : toInt (o 0) = .ok (p : Int)) (hp : 3 ≤ p)
    (hb : triDen p ≤ 2147483647) : Computes trimaBatch o (p - 1) (trimaVal p) := by
  intro x N
  have h1 := startM1_ok hc (show 1 ≤ p by omega)
  have eh : Int.tdiv (p : Int) 2 = ((p / 2 : Nat) : Int) := by
    rw [Int.tdiv_eq_ediv_of_nonneg (by omega)]; rfl
  have eo : (Int.tmod (p : Int) 2 ≠ 0) ↔ p % 2 = 1 := by
    rw [Int.tmod_eq_emod_of_nonneg (by omega)]; omega
  have el : (if Int.tmod (p : Int) 2 ≠ 0 then Int.tdiv (p : Int) 2 else Int.tdiv (p : Int) 2 - 1) = ((triLead p : Nat) : Int) := by
    unfold triLead
    by_cases h : p % 2 = 1
    · rw [if_pos (eo.2 h), if_pos h, eh]
    · rw [if_neg (mt eo.1 h), if_neg h, eh]; omega
  have ed : (if Int.tmod (p : Int) 2 ≠ 0 then (Int.tdiv (p : Int) 2 + 1) * (Int.tdiv (p : Int) 2 + 1)
      else (Int.tdiv (p : Int) 2 + 1) * Int.tdiv (p : Int) 2) = ((triDen p : Nat) : Int) := by
    unfold triDen
    by_cases h : p % 2 = 1
    · rw [if_pos (eo.2 h), if_pos h, eh]; push_cast; rfl
    · rw [if_neg (mt eo.1 h), if_neg h, eh]; push_cast; rfl
  have hl1 : 1 ≤ triLead p ∧ triLead p + 2 ≤ p ∧ p ≤ 2 * triLead p + 2 ∧ 2 * triLead p + 1 ≤ p := by
    unfold triLead; split <;> omega
  unfold trimaBatch
  rw [hc, bind_ok, if_neg (by omega), trimaStart, hc, bind_ok, h1, bind_ok, length_pre]
  split
  · rename_i h; simp [show N - (p - 1) = 0 by omega]
  rw [if_neg (by omega)]
  simp only []
  rw [ed, i32_ok _ (by omega) (by exact_mod_cast hb), bind_ok]
  simp only [el]
  generalize hL : triLead p = L at *
  refine forUp_bind 0 (p - 1) (fun i => ((trimaSt p x i).1, (trimaSt p x i).2.1, (trimaSt p x i).2.2,
    min ((i : Int) + 1) (p - i))) rfl (by omega) (by simp [trimaSt]; omega) (by omega) ?_ ?_
  · intro i _ hi
    rw [rd_pre_nat _ _ _ (by omega), bind_ok, trimaSt, if_pos hi, hL]
    simp only [pure_eq]
    congr 2
    have e1 : (if (p : Int) - L < i + 1 then (trimaSt p x i).2.1 + x i else (trimaSt p x i).2.1) =
      if p - L < i + 1 then (trimaSt p x i).2.1 + x i else (trimaSt p x i).2.1 := by
      by_cases h : p - L < i + 1
      · rw [if_pos h, if_pos (by omega)]
      · rw [if_neg h, if_neg (by omega)]
    have e2 : (if (i : Int) + 1 ≤ L + 1 then (trimaSt p x i).2.2 + x i else (trimaSt p x i).2.2) =
      if i + 1 ≤ L + 1 then (trimaSt p x i).2.2 + x i else (trimaSt p x i).2.2 := by
      by_cases h : i + 1 ≤ L + 1
      · rw [if_pos h, if_pos (by omega)]
      · rw [if_neg h, if_neg (by omega)]
    rw [e1, e2]
    congr 2
    split <;> split <;> omega
  refine forUp_bind (p - 1) N (fun i => ((trimaSt p x i).1, (trimaSt p x i).2.1, (trimaSt p x i).2.2,
    ((i - L + 1 : Nat) : Int), ((i - (p - 1) + L + 1 : Nat) : Int), ((i - (p - 1) : Nat) : Int),
    pre (trimaVal p x) (i - (p - 1)))) (by omega) rfl ?_ (by omega) ?_ ?_
  · refine Prod.ext rfl (Prod.ext rfl (Prod.ext rfl (Prod.ext ?_ (Prod.ext ?_ (Prod.ext ?_ ?_))))) <;> simp <;> omega
  · intro i h1 hi
    run_simp []
    rw [pre_snoc (m := i + 1 - (p - 1)) (by omega)]
    · rw [trimaSt, if_neg (by omega), hL]
      congr 1
      refine Prod.ext rfl (Prod.ext rfl (Prod.ext rfl (Prod.ext ?_ (Prod.ext ?_ (Prod.ext ?_ rfl))))) <;> simp only <;> omega
    · simp only [trimaVal, show i - (p - 1) + (p - 1) = i by omega]
  · run_simp []

/-- weight_sumsqrt, sumsqrt of hma before the `m`-th difference. -/
def hmaQ (s : Nat) (d : Nat → R) : Nat → R × R
  | 0 => (c! 0, c! 0)
  | m + 1 => ((hmaQ s d m).1 + d m * ((s : Int) : R) - ((hmaQ s d m).2 + d m),
      if s - 1 ≤ m then (hmaQ s d m).2 + d m - d (m - (s - 1)) else (hmaQ s d m).2 + d m)

/-- The difference of two weighted averages that hma averages. -/
def hmaD (p : Nat) (x : Nat → R) (n : Nat) : R :=
  c! 2 * wmaVal (p / 2) (fun k => x (k + (p - p / 2))) n - wmaVal p x n

def hmaVal (p s : Nat) (x : Nat → R) (j : Nat) : R :=
  ((hmaQ s (hmaD p x) (j + (s - 1))).1 + hmaD p x (j + (s - 1)) * ((s : Int) : R)) / ((Int.tdiv (s * (s + 1)) 2 : Int) : R)

theorem triangle_ok (n : Nat) (h : n * (n + 1) ≤ 2147483647) : triangle (n : Int) = .ok (Int.tdiv (n * (n + 1)) 2) := by
  have hb' : (n : Int) * (n + 1) ≤ 2147483647 := by exact_mod_cast h
  have hb0 : (0 : Int) ≤ (n : Int) * (n + 1) := by positivity
  have hn : (n : Int) + 1 ≤ 2147483647 := by
    rcases n with _ | n
    · norm_num
    · push_cast at hb' ⊢; nlinarith
  rw [triangle, i32_ok _ (by omega) hn, bind_ok, i32_ok _ (by omega) hb', bind_ok]
  rfl

theorem hma_run (o : Nat → R) (p s : Nat) (hc : toInt (o 0) = .ok (p : Int))
    (hs : toInt (CMath.sqrt ((p : Int) : R)) = .ok (s : Int)) (hp : 2 ≤ p) (hs1 : 1 ≤ s) (hsp : s ≤ p)
    (hb : p * (p + 1) ≤ 2147483647) : Computes hmaBatch o (p + s - 2) (hmaVal p s) := by
  intro x N
  have hsb : s * (s + 1) ≤ 2147483647 := (Nat.mul_le_mul hsp (by omega)).trans hb
  have h2b : p / 2 * (p / 2 + 1) ≤ 2147483647 := (Nat.mul_le_mul (Nat.div_le_self _ _) (by omega)).trans hb
  have hpb : p ≤ 65536 := by by_contra h; have : 65537 * 65538 ≤ p * (p + 1) := Nat.mul_le_mul (by omega) (by omega); omega
  have e2 : Int.tdiv (p : Int) 2 = ((p / 2 : Nat) : Int) := by rw [Int.tdiv_eq_ediv_of_nonneg (by omega)]; rfl
  have hst : hmaStart o = .ok ((p + s - 2 : Nat) : Int) := by
    rw [hmaStart, hc, bind_ok, hs, bind_ok, if_pos (by omega), i32_ok _ (by omega) (by omega)]; congr 1; omega
  unfold hmaBatch
  rw [hc, bind_ok, if_neg (by omega), hst, bind_ok, length_pre]
  split
  · rename_i h; simp [show N - (p + s - 2) = 0 by omega]
  rw [hs, bind_ok, triangle_ok p hb, bind_ok, e2, triangle_ok _ h2b, bind_ok, triangle_ok s hsb, bind_ok]
  obtain ⟨q, hq, hq1, hq2⟩ : ∃ q, q = p / 2 ∧ 1 ≤ q ∧ q < p := ⟨_, rfl, by omega, by omega⟩
  rw [← hq]
  refine forUp_bind 0 (p - 1) (fun i => (wmaSt p x i, wmaSt q (fun k => x (k + (p - q))) (i - (p - q)))) rfl (by omega) ?_
    (by omega) ?_ ?_
  · simp [wmaSt]
  · intro i _ hi
    simp only []
    rw [rd_pre_nat _ _ _ (by omega), bind_ok]
    simp only [pure_eq]
    congr 2
    · rw [wmaSt, if_pos hi]
    · by_cases h : p - q ≤ i
      · rw [if_pos (by omega), show i + 1 - (p - q) = (i - (p - q)) + 1 by omega, wmaSt, if_pos (by omega),
          show i - (p - q) + (p - q) = i by omega]
        congr 4
        omega
      · rw [if_neg (by omega), show i + 1 - (p - q) = 0 by omega, show i - (p - q) = 0 by omega]
  have hD : ∀ n, hmaD p x n = c! 2 * wmaVal q (fun k => x (k + (p - q))) n - wmaVal p x n := fun n => by rw [hmaD, hq]
  refine forUp_bind (p - 1) N (fun i => (wmaSt p x i, wmaSt q (fun k => x (k + (p - q))) (i - (p - q)),
    hmaQ s (hmaD p x) (i - (p - 1)), TiBuf.qafter (hmaD p x) s (i - (p - 1)), pre (hmaVal p s x) (i - (p + s - 2))))
    (by omega) rfl ?_ (by omega) ?_ ?_
  · simp only [Nat.sub_self, hmaQ, TiBuf.qafter, show p - 1 - (p + s - 2) = 0 by omega, pre_zero]
  · intro i h1 hi
    obtain ⟨n, rfl⟩ : ∃ n, i = n + (p - 1) := ⟨i - (p - 1), by omega⟩
    have hdiff : c! 2 * (((wmaSt q (fun k => x (k + (p - q))) (n + (p - 1) - (p - q))).1 + x (n + (p - 1)) * ((q : Int) : R)) /
        ((Int.tdiv (q * (q + 1)) 2 : Int) : R)) - ((wmaSt p x (n + (p - 1))).1 + x (n + (p - 1)) * ((p : Int) : R)) /
        ((Int.tdiv (p * (p + 1)) 2 : Int) : R) = hmaD p x n := by
      rw [hD, wmaVal, wmaVal]
      simp only [show n + (p - 1) - (p - q) = n + (q - 1) by omega, show n + (q - 1) + (p - q) = n + (p - 1) by omega]
    simp only []
    rw [rd_pre_nat _ _ _ hi, bind_ok, hdiff]
    simp only [Nat.add_sub_cancel, show n + (p - 1) + 1 - (p - 1) = n + 1 by omega]
    rw [TiBuf.qafter_qpush _ _ hs1 _ _ rfl, bind_ok]
    have hw1 : wmaSt p x (n + (p - 1) + 1) = ((wmaSt p x (n + (p - 1))).1 + x (n + (p - 1)) * ((p : Int) : R) -
        ((wmaSt p x (n + (p - 1))).2 + x (n + (p - 1))), (wmaSt p x (n + (p - 1))).2 + x (n + (p - 1)) - x n) := by
      rw [wmaSt, if_neg (by omega), Nat.add_sub_cancel]
    have hw2 : wmaSt q (fun k => x (k + (p - q))) (n + (p - 1) + 1 - (p - q)) =
        ((wmaSt q (fun k => x (k + (p - q))) (n + (p - 1) - (p - q))).1 + x (n + (p - 1)) * ((q : Int) : R) -
        ((wmaSt q (fun k => x (k + (p - q))) (n + (p - 1) - (p - q))).2 + x (n + (p - 1))),
        (wmaSt q (fun k => x (k + (p - q))) (n + (p - 1) - (p - q))).2 + x (n + (p - 1)) - x (n + (p - q))) := by
      rw [show n + (p - 1) + 1 - (p - q) = (n + (p - 1) - (p - q)) + 1 by omega, wmaSt, if_neg (by omega),
        show n + (p - 1) - (p - q) + (p - q) = n + (p - 1) by omega,
        show n + (p - 1) - (p - q) - (q - 1) + (p - q) = n + (p - q) by omega]
    rw [hw1, hw2]
    by_cases h : s - 1 ≤ n
    · rw [if_pos (by omega), wr_pre _ _ _ _ (by omega) (by rw [hmaVal, show n + (p - 1) - (p + s - 2) + (s - 1) = n by omega]),
        bind_ok, TiBuf.get_one (TiBuf.qafter_holds _ s hs1 (n + 1)) (by omega) (by omega), bind_ok]
      simp only [pure_eq, bind_ok]
      rw [rd_at n (by omega) (by omega), bind_ok, rd_at (n + (p - q)) (by omega) (by omega), bind_ok,
        show n + (p - 1) - (p + s - 2) + 1 = n + (p - 1) + 1 - (p + s - 2) by omega, hmaQ, if_pos h,
        show n + 1 - s = n - (s - 1) by omega]
    · rw [if_neg (by omega)]
      simp only [pure_eq, bind_ok]
      rw [rd_at n (by omega) (by omega), bind_ok, rd_at (n + (p - q)) (by omega) (by omega), bind_ok,
        show n + (p - 1) - (p + s - 2) = 0 by omega, show n + (p - 1) + 1 - (p + s - 2) = 0 by omega, hmaQ, if_neg h]
  · run_simp []

/-- Relative change over `p` bars, ending at bar `n + p`. -/
def rocSig (x : Nat → R) (p n : Nat) : R := (x (n + p) - x n) / x n

theorem kstRoc_ok (x : Nat → R) (N p n : Nat) (h : n + p < N) :
    kstRoc (pre x N) ((n + p : Nat) : Int) p = .ok (rocSig x p n) := by
  rw [kstRoc, rd_pre_nat _ _ _ h, bind_ok, rd_at n (by omega) (by omega), bind_ok]; rfl

theorem kstPer_ok (m : Nat) (h : m + 1 ≤ 2147483647) : (kstPer (m : Int) : M R) = .ok (c! 2 / ((m + 1 : Int) : R)) := by
  rw [kstPer, i32_ok _ (by omega) (by omega)]; rfl

theorem kstWarm_ok (x : Nat → R) (N p r : Nat) (a : R) (hp : p ≤ r) (hr : r < N) (hb : r + 1 ≤ 2147483647) :
    kstWarm (pre x N) p r a (rocSig x p 0) = .ok (emaRec a (rocSig x p) (r - p)) := by
  rw [kstWarm, i32_ok _ (by omega) (by omega), bind_ok]
  have e : (if (r : Int) + 1 < (pre x N).length then (r : Int) + 1 else ((pre x N).length : Int)) = ((r + 1 : Nat) : Int) := by
    rw [length_pre]; split <;> omega
  rw [e]
  have := forUp_bind (k := Except.ok) (p + 1) (r + 1) (fun i => emaRec a (rocSig x p) (i - (p + 1)))
    (lo := (p : Int) + 1) (hi := ((r + 1 : Nat) : Int)) (s := rocSig x p 0)
    (f := fun i v => do
      let r ← kstRoc (pre x N) i p
      return (r - v) * a + v) (res := .ok (emaRec a (rocSig x p) (r - p))) (by omega) rfl (by simp [emaRec]) (by omega) ?_ ?_
  · revert this
    generalize forUp _ _ _ _ = z
    intro this
    cases z <;> simp_all [bind, Except.bind]
  · intro i h1 hi
    obtain ⟨n, rfl⟩ : ∃ n, i = n + 1 + p := ⟨i - p - 1, by omega⟩
    rw [kstRoc_ok x N p (n + 1) (by omega), bind_ok, show n + 1 + p - (p + 1) = n by omega,
      show n + 1 + p + 1 - (p + 1) = n + 1 by omega]
    rfl
  · rw [show r + 1 - (p + 1) = r - p by omega]

def kstVal (r1 r2 r3 r4 m1 m2 m3 m4 : Nat) (x : Nat → R) (j : Nat) : R :=
  kstMix (emaRec (c! 2 / ((m1 + 1 : Int) : R)) (rocSig x r1) (j + (r4 - r1))) (emaRec (c! 2 / ((m2 + 1 : Int) : R)) (rocSig x r2) (j + (r4 - r2)))
    (emaRec (c! 2 / ((m3 + 1 : Int) : R)) (rocSig x r3) (j + (r4 - r3))) (emaRec (c! 2 / ((m4 + 1 : Int) : R)) (rocSig x r4) j)

theorem kst_run (o : Nat → R) (r1 r2 r3 r4 m1 m2 m3 m4 : Nat)
    (h1 : toInt (o 0) = .ok (r1 : Int)) (h2 : toInt (o 1) = .ok (r2 : Int)) (h3 : toInt (o 2) = .ok (r3 : Int))
    (h4 : toInt (o 3) = .ok (r4 : Int)) (h5 : toInt (o 4) = .ok (m1 : Int)) (h6 : toInt (o 5) = .ok (m2 : Int))
    (h7 : toInt (o 6) = .ok (m3 : Int)) (h8 : toInt (o 7) = .ok (m4 : Int)) (hr : r1 < r2 ∧ r2 < r3 ∧ r3 < r4)
    (hn : ¬ (o 0 < c! 1 ∨ o 1 < c! 1 ∨ o 2 < c! 1 ∨ o 3 < c! 1 ∨ o 4 < c! 1 ∨ o 5 < c! 1 ∨ o 6 < c! 1 ∨ o 7 < c! 1))
    (hb : r4 + 1 ≤ 2147483647) (hm : m1 + 1 ≤ 2147483647 ∧ m2 + 1 ≤ 2147483647 ∧ m3 + 1 ≤ 2147483647 ∧ m4 + 1 ≤ 2147483647)
    (x : Nat → R) (N : Nat) (hN : r4 < N) : kstBatch o (pre x N) = .ok (.okay, pre (fun j =>
      ⟨kstVal r1 r2 r3 r4 m1 m2 m3 m4 x j, emaRec (c! 2 / (c! 9 + c! 1)) (kstVal r1 r2 r3 r4 m1 m2 m3 m4 x) j⟩) (N - r4)) := by
  have z : ∀ r : Nat, r < N → kstRoc (pre x N) (r : Int) r = .ok (rocSig x r 0) := fun r h => by
    have := kstRoc_ok x N r 0 (by omega); rwa [Nat.zero_add] at this
  unfold kstBatch
  simp only [h1, h2, h3, h4, h5, h6, h7, h8, bind_ok, kstStart, length_pre]
  rw [if_neg (by omega), if_neg hn, kstPer_ok m1 (by omega), bind_ok, kstPer_ok m2 (by omega), bind_ok, kstPer_ok m3 (by omega), bind_ok,
    kstPer_ok m4 (by omega), bind_ok, z r1 (by omega), bind_ok, z r2 (by omega), bind_ok, z r3 (by omega), bind_ok, z r4 hN, bind_ok,
    kstWarm_ok x N r1 r4 _ (by omega) hN hb, bind_ok, kstWarm_ok x N r2 r4 _ (by omega) hN hb, bind_ok,
    kstWarm_ok x N r3 r4 _ (by omega) hN hb, bind_ok, kstWarm_ok x N r4 r4 _ (by omega) hN hb, bind_ok, wr_ok _ _ _ (by simp; omega), bind_ok]
  rw [Nat.sub_self]
  refine forUp_bind (r4 + 1) N (fun i => ((emaRec (c! 2 / ((m1 + 1 : Int) : R)) (rocSig x r1) (i - (r4 + 1) + (r4 - r1)),
    emaRec (c! 2 / ((m2 + 1 : Int) : R)) (rocSig x r2) (i - (r4 + 1) + (r4 - r2)), emaRec (c! 2 / ((m3 + 1 : Int) : R)) (rocSig x r3) (i - (r4 + 1) + (r4 - r3)),
    emaRec (c! 2 / ((m4 + 1 : Int) : R)) (rocSig x r4) (i - (r4 + 1))),
    emaRec (c! 2 / (c! 9 + c! 1)) (kstVal r1 r2 r3 r4 m1 m2 m3 m4 x) (i - (r4 + 1)),
    pre (fun j => (⟨kstVal r1 r2 r3 r4 m1 m2 m3 m4 x j, emaRec (c! 2 / (c! 9 + c! 1)) (kstVal r1 r2 r3 r4 m1 m2 m3 m4 x) j⟩ : Kst R)) (i - r4)))
    (by omega) rfl ?_ (by omega) ?_ ?_
  · simp [emaRec, kstVal, pre_succ]
  · intro i hi1 hi
    obtain ⟨n, rfl⟩ : ∃ n, i = n + 1 + r4 := ⟨i - r4 - 1, by omega⟩
    have w : ∀ r : Nat, r ≤ r4 → kstRoc (pre x N) ((n + 1 + r4 : Nat) : Int) r = .ok (rocSig x r (n + (r4 - r) + 1)) := fun r h => by
      have := kstRoc_ok x N r (n + (r4 - r) + 1) (by omega)
      rwa [show n + (r4 - r) + 1 + r = n + 1 + r4 by omega] at this
    rw [w r1 (by omega), bind_ok, w r2 (by omega), bind_ok, w r3 (by omega), bind_ok, w r4 (by omega), bind_ok]
    simp only [show n + 1 + r4 - (r4 + 1) = n by omega, show n + 1 + r4 + 1 - (r4 + 1) = n + 1 by omega, Nat.sub_self, Nat.add_zero]
    have em : ∀ (a : R) (r : Nat), emaRec a (rocSig x r) (n + 1 + (r4 - r)) =
        (rocSig x r (n + (r4 - r) + 1) - emaRec a (rocSig x r) (n + (r4 - r))) * a + emaRec a (rocSig x r) (n + (r4 - r)) := fun a r => by
      rw [show n + 1 + (r4 - r) = (n + (r4 - r)) + 1 by omega, emaRec]
    have em4 : ∀ (a : R), emaRec a (rocSig x r4) (n + 1) =
        (rocSig x r4 (n + 1) - emaRec a (rocSig x r4) n) * a + emaRec a (rocSig x r4) n := fun a => rfl
    rw [← em, ← em, ← em, ← em4]
    rw [wr_ok _ _ _ (by simp; omega), bind_ok, pre_snoc (m := n + 1 + r4 + 1 - r4) (by omega)]
    · rfl
    · rw [show n + 1 + r4 - r4 = n + 1 by omega]; rfl
  · run_simp []

end Verif
