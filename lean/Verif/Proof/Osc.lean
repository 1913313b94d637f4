/- cci, cvi, mass, ultosc, abands, msw: runs in any arithmetic (helper lemmas). -/
import Verif.Model.Osc
import Verif.Proof.Direction
import Verif.Proof.Window
import Verif.Proof.TiBuf

namespace Verif
set_option linter.unusedSectionVars false
set_option linter.unusedSimpArgs false
variable {R : Type} [Num R]

/-- Which of `n` pushed values cell `j` of a full buffer of size `p` holds. -/
def cellIdx (p n j : Nat) : Nat := j + p * ((n - 1 - j) / p)

theorem cellIdx_ok (p n j : Nat) (hj : j < p) (hn : p ≤ n) :
    cellIdx p n j < n ∧ n ≤ cellIdx p n j + p ∧ cellIdx p n j % p = j := by
  unfold cellIdx
  have h1 := Nat.div_add_mod (n - 1 - j) p
  have h2 := Nat.mod_lt (n - 1 - j) (show 0 < p by omega)
  refine ⟨by omega, by omega, ?_⟩
  rw [Nat.add_mul_mod_self_left, Nat.mod_eq_of_lt hj]

def typ3 (x : Nat → HLC R) (k : Nat) : R := typPrice (x k).high (x k).low (x k).close

/-- `acc` of cci after bar `i`. -/
def cciAcc (p : Nat) (y : Nat → R) (i : Nat) : R :=
  sumTo (fun k => CMath.fabs (TiBuf.bsum y p (i + 1) * (c! 1 / ((p : Int) : R)) - y (cellIdx p (i + 1) k))) p

def cciVal (p : Nat) (y : Nat → R) (i : Nat) : R :=
  cciOut (cciAcc p y i) (c! 1 / ((p : Int) : R)) (y i) (TiBuf.bsum y p (i + 1) * (c! 1 / ((p : Int) : R)))

theorem cciStart_ok {o : Nat → R} {p : Nat} (hc : toInt (o 0) = .ok (p : Int)) (hp : 1 ≤ p)
    (hb : (p - 1) * 2 ≤ 2147483647) : cciStart o = .ok (((p - 1) * 2 : Nat) : Int) := by
  unfold cciStart
  rw [hc, bind_ok, startM1_ok hc (by omega), bind_ok]
  exact startM1x_ok 2 hb

theorem cci_run (o : Nat → R) (p : Nat) (hc : toInt (o 0) = .ok (p : Int)) (hp : 1 ≤ p) (hb : p * 2 ≤ 2147483647) :
    Computes cciBatch o ((p - 1) * 2) (fun x j => cciVal p (typ3 x) (j + (p - 1) * 2)) := by
  intro x N
  unfold cciBatch
  rw [hc, bind_ok, cciStart_ok hc hp (by omega)]
  simp only [bind_ok, length_pre, pure_eq]
  rw [if_neg (by omega)]
  split
  · rename_i h; simp [show N - (p - 1) * 2 = 0 by omega]
  refine forUp_bind 0 N (fun i => (TiBuf.after (typ3 x) p i,
    pre (fun j => cciVal p (typ3 x) (j + (p - 1) * 2)) (i - (p - 1) * 2))) rfl rfl (by simp [TiBuf.after]) (by omega) ?_ ?_
  · intro i _ hi
    rw [rd_pre_nat _ _ _ hi, bind_ok, TiBuf.after_push _ _ hp _ _ (by rfl), bind_ok,
      i32_ok _ (by omega) (by omega), bind_ok]
    by_cases h : (p - 1) * 2 ≤ i
    · rw [if_pos (by omega)]
      refine forUp_bind 0 p (fun k => sumTo (fun k => CMath.fabs (TiBuf.bsum (typ3 x) p (i + 1) * (c! 1 / ((p : Int) : R))
        - typ3 x (cellIdx p (i + 1) k))) k) rfl rfl rfl (by omega) ?_ ?_
      · intro k _ hk
        obtain ⟨h1, h2, h3⟩ := cellIdx_ok p (i + 1) k hk (by omega)
        rw [TiBuf.at_hist (TiBuf.after_holds (typ3 x) p hp (i + 1)).toQHolds hp (cellIdx p (i + 1) k) h1 h2 _ (by rw [h3]),
          bind_ok, TiBuf.after_sum _ _ hp]
        rfl
      · rw [TiBuf.after_sum _ _ hp]
        run_simp []
        rw [pre_snoc (m := i + 1 - (p - 1) * 2) (by omega)]
        simp only [cciVal, show i - (p - 1) * 2 + (p - 1) * 2 = i by omega]
        rfl
    · rw [if_neg (by omega), show i + 1 - (p - 1) * 2 = 0 by omega, show i - (p - 1) * 2 = 0 by omega]
  · run_simp []

/-- high - low -/
def rng (x : Nat → HL R) (k : Nat) : R := (x k).high - (x k).low

theorem cviStart_ok {o : Nat → R} {p : Nat} (hc : toInt (o 0) = .ok (p : Int)) (hp : 1 ≤ p)
    (hb : p * 2 ≤ 2147483647) : cviStart o = .ok ((p * 2 - 1 : Nat) : Int) := by
  unfold cviStart
  rw [hc, bind_ok, i32_ok _ (by omega) (by omega), bind_ok, i32_ok _ (by omega) (by omega)]
  congr 1
  omega

theorem cvi_run (o : Nat → R) (p : Nat) (hc : toInt (o 0) = .ok (p : Int)) (hp : 2 ≤ p) (hb : p * 2 ≤ 2147483647) :
    Computes cviBatch o (p * 2 - 1) (fun x j =>
      cviOut (emaRec (emaPer p) (rng x) (j + (p * 2 - 1))) (emaRec (emaPer p) (rng x) (j + (p * 2 - 1) - p))) := by
  intro x N
  unfold cviBatch
  rw [hc, bind_ok, cviStart_ok hc (by omega) hb]
  simp only [bind_ok, length_pre, pure_eq]
  rw [if_neg (by omega)]
  split
  · rename_i h; simp [show N - (p * 2 - 1) = 0 by omega]
  rw [rd_zero _ _ (by omega), bind_ok]
  refine forUp_bind 1 (p * 2 - 1) (fun i => (emaRec (emaPer p) (rng x) (i - 1),
    TiBuf.qafter (fun k => emaRec (emaPer p) (rng x) (k + 1)) p (i - 1))) rfl (by omega)
    (by simp [emaRec, rng, TiBuf.qafter]) (by omega) ?_ ?_
  · intro i h1 hi
    obtain ⟨k, rfl⟩ : ∃ k, i = k + 1 := ⟨i - 1, by omega⟩
    rw [rd_pre_nat _ _ _ (by omega), bind_ok, Nat.add_sub_cancel, TiBuf.qafter_qpush _ _ (by omega) _ _ (by rfl), bind_ok]
    rfl
  refine forUp_bind (p * 2 - 1) N (fun i => (emaRec (emaPer p) (rng x) (i - 1),
    TiBuf.qafter (fun k => emaRec (emaPer p) (rng x) (k + 1)) p (i - 1), pre (fun j =>
      cviOut (emaRec (emaPer p) (rng x) (j + (p * 2 - 1))) (emaRec (emaPer p) (rng x) (j + (p * 2 - 1) - p)))
      (i - (p * 2 - 1)))) (by omega) rfl (by simp) (by omega) ?_ ?_
  · intro i h1 hi
    obtain ⟨k, rfl⟩ : ∃ k, i = k + 1 := ⟨i - 1, by omega⟩
    have H := TiBuf.qafter_holds (fun k => emaRec (emaPer (R := R) p) (rng x) (k + 1)) p (show 1 ≤ p by omega) k
    rw [rd_pre_nat _ _ _ hi, bind_ok, Nat.add_sub_cancel, TiBuf.at_hist H (by omega) (k - p) (by omega) (by omega) _
      (by rw [H.index, ← Nat.mod_eq_sub_mod (by omega)]), bind_ok]
    run_simp []
    rw [TiBuf.qafter_qpush _ _ (by omega) _ _ (by rfl), bind_ok, pre_snoc (m := k + 1 + 1 - (p * 2 - 1)) (by omega)]
    · rfl
    · simp only [show k + 1 - (p * 2 - 1) + (p * 2 - 1) = k + 1 by omega, show k + 1 - p = k - p + 1 by omega]
      rfl
  · run_simp []

/-- The exponential average as mass writes it: the first value is averaged with itself. -/
def emaM (y : Nat → R) : Nat → R
  | 0 => y 0 * (c! 1 - c! 2 / (c! 9 + c! 1)) + y 0 * (c! 2 / (c! 9 + c! 1))
  | n + 1 => emaM y n * (c! 1 - c! 2 / (c! 9 + c! 1)) + y (n + 1) * (c! 2 / (c! 9 + c! 1))

def massE (x : Nat → HL R) : Nat → R := emaM (rng x)
/-- `ema2` after bar `8 + k`. -/
def massE2 (x : Nat → HL R) : Nat → R := emaM fun k => massE x (k + 8)
/-- What bar `16 + k` adds. -/
def massRatio (x : Nat → HL R) (k : Nat) : R :=
  if massE x (k + 16) == c! 0 then c! 0 else massE x (k + 16) / massE2 x (k + 8)

theorem massStart_ok {o : Nat → R} {p : Nat} (hc : toInt (o 0) = .ok (p : Int)) (hp : 1 ≤ p)
    (hb : 15 + p ≤ 2147483647) : massStart o = .ok ((15 + p : Nat) : Int) := by
  unfold massStart
  rw [hc, bind_ok, startM1_ok hc hp, bind_ok, i32_ok _ (by omega) (by omega)]
  congr 1
  omega

theorem mass_run (o : Nat → R) (p : Nat) (hc : toInt (o 0) = .ok (p : Int)) (hp : 1 ≤ p) (hb : 15 + p ≤ 2147483647) :
    Computes massBatch o (15 + p) (fun x j => TiBuf.bsum (massRatio x) p (j + p)) := by
  intro x N
  unfold massBatch
  rw [hc, bind_ok, massStart_ok hc hp hb]
  simp only [bind_ok, length_pre, pure_eq]
  rw [if_neg (by omega)]
  split
  · rename_i h; simp [show N - (15 + p) = 0 by omega]
  rw [rd_zero _ _ (by omega), bind_ok]
  refine forUp_bind 0 N (fun i => (if i = 0 then rng x 0 else massE x (i - 1), if i ≤ 8 then rng x 0 else massE2 x (i - 1 - 8),
    TiBuf.after (massRatio x) p (i - 16), pre (fun j => TiBuf.bsum (massRatio x) p (j + p)) (i - (15 + p)))) rfl rfl
    (by simp [rng, TiBuf.after]) (by omega) ?_ ?_
  · intro i _ hi
    have e : (if i = 0 then rng x 0 else massE x (i - 1)) * (c! 1 - c! 2 / (c! 9 + c! 1)) + rng x i * (c! 2 / (c! 9 + c! 1))
        = massE x i := by
      cases i with
      | zero => rfl
      | succ k => rfl
    rw [rd_pre_nat _ _ _ hi, bind_ok]
    simp only [show (x i).high - (x i).low = rng x i from rfl, e]
    rw [if_neg (show ¬ i + 1 = 0 by omega), Nat.add_sub_cancel]
    by_cases h8 : 8 ≤ i
    · have e2 : (if (i : Int) = 8 then massE x i else if i ≤ 8 then rng x 0 else massE2 x (i - 1 - 8)) *
          (c! 1 - c! 2 / (c! 9 + c! 1)) + massE x i * (c! 2 / (c! 9 + c! 1)) = massE2 x (i - 8) := by
        obtain ⟨k, rfl⟩ : ∃ k, i = k + 8 := ⟨i - 8, by omega⟩
        cases k with
        | zero => rfl
        | succ k =>
          rw [if_neg (by omega), if_neg (by omega), show k + 1 + 8 - 1 - 8 = k by omega, Nat.add_sub_cancel]
          rfl
      rw [if_pos (by omega), e2, if_neg (show ¬ i + 1 ≤ 8 by omega)]
      by_cases h16 : 16 ≤ i
      · obtain ⟨k, rfl⟩ : ∃ k, i = k + 16 := ⟨i - 16, by omega⟩
        rw [if_pos (by omega), show k + 16 - 8 = k + 8 by omega, Nat.add_sub_cancel,
          TiBuf.after_push _ _ hp _ _ (by rfl), bind_ok, show k + 16 + 1 - 16 = k + 1 by omega, TiBuf.after_sum _ _ hp]
        by_cases hq : p ≤ k + 1
        · rw [if_pos (by omega)]
          run_simp []
          rw [pre_snoc (m := k + 16 + 1 - (15 + p)) (by omega)]
          simp only [show k + 16 - (15 + p) + p = k + 1 by omega]
        · rw [if_neg (by omega), show k + 16 + 1 - (15 + p) = 0 by omega, show k + 16 - (15 + p) = 0 by omega]
      · rw [if_neg (by omega), show i + 1 - 16 = i - 16 by omega, show i + 1 - (15 + p) = i - (15 + p) by omega]
    · rw [if_neg (by omega), if_neg (show ¬ (i : Int) = 8 by omega), if_pos (show i ≤ 8 by omega),
        if_pos (show i + 1 ≤ 8 by omega), show i + 1 - 16 = i - 16 by omega, show i + 1 - (15 + p) = i - (15 + p) by omega]
  · run_simp []

/-- Buying pressure and range of bar `k + 1`. -/
def bpSig (x : Nat → HLC R) (k : Nat) : R := ultoscBp (x (k + 1)) (x k).close
def rSig (x : Nat → HLC R) (k : Nat) : R := ultoscR (x (k + 1)) (x k).close

theorem ultoscIdx_ok {b : TiBuf R} {m n : Nat} (hidx : b.index = (n % m : Nat)) (s : Nat) (hs : s < m) (hn : s < n) :
    ultoscIdx b s m = ((n - 1 - s) % m : Nat) := by
  unfold ultoscIdx
  rw [hidx]
  have h1 := Nat.div_add_mod n m
  have h2 := Nat.mod_lt n (show 0 < m by omega)
  generalize n % m = r at *
  generalize n / m = q at *
  by_cases h : s + 1 ≤ r
  · have e : n - 1 - s = m * q + (r - s - 1) := by omega
    rw [if_neg (by omega), e, Nat.mul_add_mod, Nat.mod_eq_of_lt (by omega)]
    omega
  · cases q with
    | zero => omega
    | succ q =>
      rw [Nat.mul_succ] at h1
      have e : n - 1 - s = m * q + (m + r - s - 1) := by omega
      rw [if_pos (by omega), e, Nat.mul_add_mod, Nat.mod_eq_of_lt (by omega)]
      omega

def ultoscVal (s m l : Nat) (x : Nat → HLC R) (i : Nat) : R :=
  ultoscOut (slide (bpSig x) s i) (slide (rSig x) s i) (slide (bpSig x) m i) (slide (rSig x) m i)
    (TiBuf.bsum (bpSig x) l i) (TiBuf.bsum (rSig x) l i)

theorem ultosc_sub (x : Nat → HLC R) (s l k : Nat) (hs : s < l) :
    ((if (s : Int) < ((k + 1 : Nat) : Int) then
        (TiBuf.after (bpSig x) l (k + 1)).at_ (ultoscIdx (TiBuf.after (bpSig x) l (k + 1)) s l) >>= fun a =>
        (TiBuf.after (rSig x) l (k + 1)).at_ (ultoscIdx (TiBuf.after (bpSig x) l (k + 1)) s l) >>= fun b =>
          .ok (slide (bpSig x) s k + bpSig x k - a, slide (rSig x) s k + rSig x k - b)
      else .ok (slide (bpSig x) s k + bpSig x k, slide (rSig x) s k + rSig x k)) : M (R × R))
      = .ok (slide (bpSig x) s (k + 1), slide (rSig x) s (k + 1)) := by
  have H1 := TiBuf.after_holds (bpSig x) l (by omega) (k + 1)
  have H2 := TiBuf.after_holds (rSig x) l (by omega) (k + 1)
  by_cases h : k < s
  · rw [if_neg (by omega)]; simp only [slide, if_pos h]
  · rw [if_pos (by omega), ultoscIdx_ok H1.index s hs (by omega),
      TiBuf.at_hist H1.toQHolds (by omega) (k + 1 - 1 - s) (by omega) (by omega) _ rfl, bind_ok,
      TiBuf.at_hist H2.toQHolds (by omega) (k + 1 - 1 - s) (by omega) (by omega) _ rfl, bind_ok]
    simp only [slide, if_neg h, Nat.add_sub_cancel]

theorem ultosc_run (o : Nat → R) (s m l : Nat) (hs : toInt (o 0) = .ok (s : Int)) (hm : toInt (o 1) = .ok (m : Int))
    (hl : toInt (o 2) = .ok (l : Int)) (h1 : 1 ≤ s) (h2 : s ≤ m) (h3 : m < l) :
    Computes ultoscBatch o l (fun x j => ultoscVal s m l x (j + l)) := by
  intro x N
  unfold ultoscBatch
  simp only [hs, hm, hl, bind_ok, ultoscStart, length_pre, pure_eq]
  rw [if_neg (by omega), if_neg (by omega), if_neg (by omega)]
  split
  · rename_i h; simp [show N - l = 0 by omega]
  refine forUp_bind 1 N (fun i => (TiBuf.after (bpSig x) l (i - 1), TiBuf.after (rSig x) l (i - 1),
    (slide (bpSig x) s (i - 1), slide (rSig x) s (i - 1)), (slide (bpSig x) m (i - 1), slide (rSig x) m (i - 1)),
    pre (fun j => ultoscVal s m l x (j + l)) (i - l))) rfl rfl (by simp [TiBuf.after, slide, show 1 - l = 0 by omega])
    (by omega) ?_ ?_
  · intro i hi1 hi
    obtain ⟨k, rfl⟩ : ∃ k, i = k + 1 := ⟨i - 1, by omega⟩
    rw [rd_pre_nat _ _ _ hi, bind_ok, rd_at k (by omega) (by omega), bind_ok, Nat.add_sub_cancel,
      TiBuf.after_push _ _ (by omega) _ _ (by rfl), bind_ok, TiBuf.after_push _ _ (by omega) _ _ (by rfl), bind_ok]
    simp only [show ultoscBp (x (k + 1)) (x k).close = bpSig x k from rfl,
      show ultoscR (x (k + 1)) (x k).close = rSig x k from rfl]
    rw [ultosc_sub x s l k (by omega), bind_ok]
    rw [if_congr (show ((s : Int) < ((k + 1 : Nat) : Int) ∧ (m : Int) < ((k + 1 : Nat) : Int)) ↔ (m : Int) < ((k + 1 : Nat) : Int)
      by omega) rfl rfl, ultosc_sub x m l k h3, bind_ok, TiBuf.after_sum _ _ (by omega), TiBuf.after_sum _ _ (by omega)]
    by_cases h : l ≤ k + 1
    · rw [if_pos (by omega)]
      run_simp []
      rw [pre_snoc (m := k + 1 + 1 - l) (by omega)]
      · rfl
      · simp only [ultoscVal, show k + 1 - l + l = k + 1 by omega]
    · rw [if_neg (by omega), show k + 1 - l = 0 by omega, show k + 1 + 1 - l = 0 by omega]
      rfl
  · run_simp []

/-- `close_sum` of abands. -/
def slideD (x : Nat → R) (p : Nat) : Nat → R
  | 0 => c! 0
  | i + 1 => if i < p then slideD x p i + x i else slideD x p i + (x i - x (i - p))

def abandsVal (p : Nat) (x : Nat → HLC R) (j : Nat) : Bands R :=
  ⟨TiBuf.bsum (fun k => abandsLow (x k)) p (j + p) * (c! 1 / ((p : Int) : R)),
    slideD (fun k => (x k).close) p (j + p) * (c! 1 / ((p : Int) : R)),
    TiBuf.bsum (fun k => abandsHigh (x k)) p (j + p) * (c! 1 / ((p : Int) : R))⟩

theorem abands_run (o : Nat → R) (p : Nat) (hc : toInt (o 0) = .ok (p : Int)) (hp : 1 ≤ p) :
    Computes abandsBatch o (p - 1) (abandsVal p) := by
  intro x N
  unfold abandsBatch
  simp only [hc, bind_ok, abandsStart, startM1_ok hc hp, length_pre, pure_eq]
  rw [if_neg (by omega)]
  split
  · rename_i h; simp [show N - (p - 1) = 0 by omega]
  refine forUp_bind 0 p (fun i => (TiBuf.after (fun k => abandsHigh (x k)) p i, TiBuf.after (fun k => abandsLow (x k)) p i,
    slideD (fun k => (x k).close) p i)) rfl rfl rfl (by omega) ?_ ?_
  · intro i _ hi
    rw [rd_pre_nat _ _ _ (by omega), bind_ok, TiBuf.after_push _ _ hp _ _ (by rfl), bind_ok,
      TiBuf.after_push _ _ hp _ _ (by rfl), bind_ok]
    simp only [slideD, if_pos hi]
  rw [TiBuf.after_sum _ _ hp, TiBuf.after_sum _ _ hp]
  run_simp []
  refine forUp_bind p N (fun i => (TiBuf.after (fun k => abandsHigh (x k)) p i, TiBuf.after (fun k => abandsLow (x k)) p i,
    slideD (fun k => (x k).close) p i, pre (abandsVal p x) (i + 1 - p))) rfl rfl ?_ (by omega) ?_ ?_
  · rw [show p + 1 - p = 1 by omega]
    simp [pre_succ, abandsVal]
  · intro i h1 hi
    rw [rd_pre_nat _ _ _ hi, bind_ok, TiBuf.after_push _ _ hp _ _ (by rfl), bind_ok,
      TiBuf.after_push _ _ hp _ _ (by rfl), bind_ok, rd_at (i - p) (by omega) (by omega), bind_ok,
      TiBuf.after_sum _ _ hp, TiBuf.after_sum _ _ hp]
    have e : slideD (fun k => (x k).close) p i + ((x i).close - (x (i - p)).close) = slideD (fun k => (x k).close) p (i + 1) := by
      rw [slideD, if_neg (by omega)]
    run_simp [e]
    rw [pre_snoc (m := i + 1 + 1 - p) (by omega)]
    simp only [abandsVal, show i + 1 - p + p = i + 1 by omega]
  · rw [finish_ok (by simp; omega), show N + 1 - p = N - (p - 1) by omega]

def abandsRefVal (p : Nat) (x : Nat → HLC R) (j : Nat) : Bands R :=
  ⟨sumTo (fun k => ((x (j + k)).low * (c! 1 - abandsRefMult (x (j + k)))) / ((p : Int) : R)) p,
    sumTo (fun k => (x (j + k)).close / ((p : Int) : R)) p,
    sumTo (fun k => ((x (j + k)).high * (c! 1 + abandsRefMult (x (j + k)))) / ((p : Int) : R)) p⟩

theorem abandsRef_run (o : Nat → R) (p : Nat) (hc : toInt (o 0) = .ok (p : Int)) (hp : 1 ≤ p) (x : Nat → HLC R) (N : Nat)
    (hN : p - 1 ≤ N) : abandsRef o (pre x N) = .ok (.okay, pre (abandsRefVal p x) (N - (p - 1))) := by
  unfold abandsRef
  simp only [hc, bind_ok, abandsStart, startM1_ok hc hp, length_pre, pure_eq]
  rw [if_neg (by omega)]
  refine forUp_bind (p - 1) N (fun i => pre (abandsRefVal p x) (i - (p - 1))) (by omega) rfl (by simp) (by omega) ?_ ?_
  · intro i h1 hi
    obtain ⟨j, rfl⟩ : ∃ j, i = j + (p - 1) := ⟨i - (p - 1), by omega⟩
    refine forUp_bind j (j + p)
      (fun i => (sumTo (fun k => ((x (j + k)).high * (c! 1 + abandsRefMult (x (j + k)))) / ((p : Int) : R)) (i - j),
        sumTo (fun k => (x (j + k)).close / ((p : Int) : R)) (i - j),
        sumTo (fun k => ((x (j + k)).low * (c! 1 - abandsRefMult (x (j + k)))) / ((p : Int) : R)) (i - j)))
      (by omega) (by omega) (by simp [sumTo]) (by omega) ?_ ?_
    · intro i h2 h3
      obtain ⟨k, rfl⟩ : ∃ k, i = j + k := ⟨i - j, by omega⟩
      rw [rd_pre_nat _ _ _ (by omega), bind_ok, show j + k + 1 - j = k + 1 by omega, Nat.add_sub_cancel_left]
      rfl
    · rw [Nat.add_sub_cancel_left]
      run_simp []
      rw [pre_snoc (m := j + (p - 1) + 1 - (p - 1)) (by omega)]
      rw [Nat.add_sub_cancel]
      rfl
  · run_simp []

def mswRe (p : Nat) (x : Nat → R) (i : Nat) : R :=
  sumTo (fun k => CMath.cos (mswTpi * ((k : Int) : R) / ((p : Int) : R)) * x (i - k)) p
def mswIm (p : Nat) (x : Nat → R) (i : Nat) : R :=
  sumTo (fun k => CMath.sin (mswTpi * ((k : Int) : R) / ((p : Int) : R)) * x (i - k)) p

theorem msw_run (o : Nat → R) (p : Nat) (hc : toInt (o 0) = .ok (p : Int)) (hp : 1 ≤ p) :
    Computes mswBatch o p (fun x j => mswOut (mswRe p x (j + p)) (mswIm p x (j + p))) := by
  intro x N
  unfold mswBatch
  simp only [hc, bind_ok, mswStart, length_pre, pure_eq]
  rw [if_neg (by omega)]
  split
  · rename_i h; simp [show N - p = 0 by omega]
  refine forUp_bind p N (fun i => pre (fun j => mswOut (mswRe p x (j + p)) (mswIm p x (j + p))) (i - p)) rfl rfl (by simp)
    (by omega) ?_ ?_
  · intro i h1 hi
    refine forUp_bind 0 p (fun n =>
      (sumTo (fun k => CMath.cos (mswTpi * ((k : Int) : R) / ((p : Int) : R)) * x (i - k)) n,
       sumTo (fun k => CMath.sin (mswTpi * ((k : Int) : R) / ((p : Int) : R)) * x (i - k)) n)) rfl rfl rfl (by omega) ?_ ?_
    · intro k _ hk
      rw [rd_at (i - k) (by omega) (by omega), bind_ok]
      rfl
    · run_simp []
      rw [pre_snoc (m := i + 1 - p) (by omega)]
      simp only [show i - p + p = i by omega]
      rfl
  · run_simp []

end Verif
