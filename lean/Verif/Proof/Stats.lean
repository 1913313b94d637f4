/- var, stddev, stderr, bbands, volatility, md: runs in any arithmetic (helper lemmas). -/
import Verif.Model.Stats
import Verif.Proof.Window

namespace Verif
set_option linter.unusedSectionVars false
set_option linter.unusedSimpArgs false
variable {R : Type} [Num R]

/-- `sum`, `sum2` after `i` values. -/
def mom (y : Nat → R) (p i : Nat) : R × R := (slide y p i, slide (fun k => y k * y k) p i)

/-- The loops shared by the moment indicators, for the signal `y k = get (off + k)`. -/
theorem mom_loops {α : Type} (get : Int → M R) (y : Nat → R) (off p N : Nat) (f : R × R → α)
    (hg : ∀ k, k + off < N → get ((k + off : Nat) : Int) = .ok (y k)) (hp : 1 ≤ p) (hN : off + p ≤ N) (start cap lo hi : Int)
    (hlo : lo = off) (hhi : hi = (off + p : Nat)) (hs : start = (off + p - 1 : Nat)) (hcap : cap = N - start) :
    (momInit get lo hi >>= fun s => wr cap [] (f s) >>= fun out =>
      forUp hi N (s, out) (fun i (s, out) => momStep get p i s >>= fun s => wr cap out (f s) >>= fun out => .ok (s, out))
        >>= fun s => finish cap s.2) =
      .ok (.okay, pre (fun j => f (mom y p (j + p))) (N - (off + p - 1))) := by
  unfold momInit
  refine forUp_bind off (off + p) (fun i => mom y p (i - off)) (by omega) (by omega) (by simp [mom, slide]) (by omega) ?_ ?_
  · intro i h1 hi
    obtain ⟨k, rfl⟩ : ∃ k, i = k + off := ⟨i - off, by omega⟩
    rw [hg k (by omega)]
    simp only [bind_ok, pure_eq, Nat.add_sub_cancel, show k + off + 1 - off = k + 1 by omega, mom, slide,
      if_pos (show k < p by omega)]
  rw [Nat.add_sub_cancel_left]
  run_simp []
  refine forUp_bind (off + p) N (fun i => (mom y p (i - off), pre (fun j => f (mom y p (j + p))) (i + 1 - (off + p))))
    (by omega) rfl (by simp [pre_succ]) (by omega) ?_ ?_
  · intro i h1 hi
    obtain ⟨k, rfl⟩ : ∃ k, i = k + p + off := ⟨i - off - p, by omega⟩
    have e1 := hg (k + p) hi
    have e2 : get (((k + p + off : Nat) : Int) - p) = .ok (y k) := by
      rw [show ((k + p + off : Nat) : Int) - p = ((k + off : Nat) : Int) by omega]; exact hg k (by omega)
    have e3 : mom y p (k + p + 1) = ((mom y p (k + p)).1 + y (k + p) - y k,
        (mom y p (k + p)).2 + y (k + p) * y (k + p) - y k * y k) := by
      simp only [mom, slide, if_neg (show ¬ k + p < p by omega), Nat.add_sub_cancel]
    simp only [momStep, e1, e2, bind_ok, pure_eq, Nat.add_sub_cancel, show k + p + off + 1 - off = k + p + 1 by omega]
    rw [← e3]
    run_simp []
    rw [pre_snoc (m := k + p + off + 1 + 1 - (off + p)) (by omega)]
    simp only [show k + p + off + 1 - (off + p) + p = k + p + 1 by omega]
  · rw [finish_ok (by simp; omega), show N + 1 - (off + p) = N - (off + p - 1) by omega]

variable (o : Nat → R) (p : Nat) (hc : toInt (o 0) = .ok (p : Int)) (hp : 1 ≤ p)
include hc hp

theorem var_run : Computes varBatch o (p - 1) (fun x j => momVar (c! 1 / ((p : Int) : R)) (mom x p (j + p))) := by
  intro x N
  unfold varBatch
  simp only [hc, bind_ok, varStart, startM1_ok hc hp, length_pre, pure_eq]
  rw [if_neg (by omega)]
  split
  · rename_i h; simp [show N - (p - 1) = 0 by omega]
  · have := mom_loops (rd (pre x N)) x 0 p N (momVar (c! 1 / ((p : Int) : R)))
      (fun k hk => rd_pre_nat _ _ _ hk) hp (by omega) _ _ 0 p rfl (by omega) (show ((p - 1 : Nat) : Int) = _ by omega) rfl
    rw [Nat.zero_add] at this
    exact this

theorem stddev_run : Computes stddevBatch o (p - 1) (fun x j => momSd (c! 1 / ((p : Int) : R)) (mom x p (j + p))) := by
  intro x N
  unfold stddevBatch
  simp only [hc, bind_ok, varStart, startM1_ok hc hp, length_pre, pure_eq]
  rw [if_neg (by omega)]
  split
  · rename_i h; simp [show N - (p - 1) = 0 by omega]
  · have := mom_loops (rd (pre x N)) x 0 p N (momSd (c! 1 / ((p : Int) : R)))
      (fun k hk => rd_pre_nat _ _ _ hk) hp (by omega) _ _ 0 p rfl (by omega) (show ((p - 1 : Nat) : Int) = _ by omega) rfl
    rw [Nat.zero_add] at this
    exact this

theorem stderr_run : Computes stderrBatch o (p - 1) (fun x j =>
    c! 1 / CMath.sqrt ((p : Int) : R) * momSd (c! 1 / ((p : Int) : R)) (mom x p (j + p))) := by
  intro x N
  unfold stderrBatch
  simp only [hc, bind_ok, varStart, startM1_ok hc hp, length_pre, pure_eq]
  rw [if_neg (by omega)]
  split
  · rename_i h; simp [show N - (p - 1) = 0 by omega]
  · have := mom_loops (rd (pre x N)) x 0 p N (fun s => c! 1 / CMath.sqrt ((p : Int) : R) * momSd (c! 1 / ((p : Int) : R)) s)
      (fun k hk => rd_pre_nat _ _ _ hk) hp (by omega) _ _ 0 p rfl (by omega) (show ((p - 1 : Nat) : Int) = _ by omega) rfl
    rw [Nat.zero_add] at this
    exact this

theorem bbands_run : Computes bbandsBatch o (p - 1) (fun x j => bbandsOut (o 1) (c! 1 / ((p : Int) : R)) (mom x p (j + p))) := by
  intro x N
  unfold bbandsBatch
  simp only [hc, bind_ok, varStart, startM1_ok hc hp, length_pre, pure_eq]
  rw [if_neg (by omega)]
  split
  · rename_i h; simp [show N - (p - 1) = 0 by omega]
  · have := mom_loops (rd (pre x N)) x 0 p N (bbandsOut (o 1) (c! 1 / ((p : Int) : R)))
      (fun k hk => rd_pre_nat _ _ _ hk) hp (by omega) _ _ 0 p rfl (by omega) (show ((p - 1 : Nat) : Int) = _ by omega) rfl
    rw [Nat.zero_add] at this
    exact this

omit hc hp in
/-- Change of bar `k+1`. -/
def chgSig (x : Nat → R) (k : Nat) : R := if x k == c! 0 then c! 0 else x (k + 1) / x k - c! 1

omit hc hp in
theorem rdChange_ok (x : Nat → R) (N k : Nat) (h : k + 1 < N) :
    rdChange (pre x N) ((k + 1 : Nat) : Int) = .ok (chgSig x k) := by
  unfold rdChange chgSig
  rw [show ((k + 1 : Nat) : Int) - 1 = (k : Int) by omega, rd_pre_nat _ _ _ (show k < N by omega), bind_ok]
  split
  · rfl
  · rw [rd_pre_nat _ _ _ h]; rfl

theorem volatility_run : Computes volatilityBatch o p (fun x j =>
    CMath.sqrt (momVar (c! 1 / ((p : Int) : R)) (mom (chgSig x) p (j + p))) * CMath.sqrt (c! 252)) := by
  intro x N
  unfold volatilityBatch
  simp only [hc, bind_ok, volatilityStart, length_pre, pure_eq]
  rw [if_neg (by omega)]
  split
  · rename_i h; simp [show N - p = 0 by omega]
  · have := mom_loops (rdChange (pre x N)) (chgSig x) 1 p N
      (fun s => CMath.sqrt (momVar (c! 1 / ((p : Int) : R)) s) * CMath.sqrt (c! 252))
      (fun k hk => rdChange_ok x N k hk) hp (by omega) _ _ 1 (p + 1) rfl (by omega) (show (p : Int) = _ by omega) rfl
    rw [show 1 + p - 1 = p by omega] at this
    exact this

omit hc hp in
/-- `acc` of md at bar `j + p - 1`. -/
def mdAcc (x : Nat → R) (p j : Nat) : R :=
  sumTo (fun k => CMath.fabs (slide x p (j + p) * (c! 1 / ((p : Int) : R)) - x (j + p - 1 - k))) p

theorem md_run : Computes mdBatch o (p - 1) (fun x j => mdAcc x p j * (c! 1 / ((p : Int) : R))) := by
  intro x N
  unfold mdBatch
  simp only [hc, bind_ok, varStart, startM1_ok hc hp, length_pre, pure_eq]
  rw [if_neg (by omega)]
  split
  · rename_i h; simp [show N - (p - 1) = 0 by omega]
  refine forUp_bind 0 N (fun i => (slide x p i, pre (fun j => mdAcc x p j * (c! 1 / ((p : Int) : R))) (i + 1 - p))) rfl rfl
    (by simp [slide, show 1 - p = 0 by omega]) (by omega) ?_ ?_
  · intro i _ hi
    have e : ((if (p : Int) ≤ i then rd (pre x N) ((i : Int) - p) >>= fun old => .ok (slide x p i + x i - old)
        else .ok (slide x p i + x i)) : M R) = .ok (slide x p (i + 1)) := by
      rw [slide]
      by_cases h : i < p
      · rw [if_neg (by omega), if_pos h]
      · rw [if_pos (by omega), if_neg h]
        run_simp []
    rw [rd_pre_nat _ _ _ hi, bind_ok, e, bind_ok]
    by_cases h : p - 1 ≤ i
    · rw [if_pos (by omega)]
      refine forUp_bind 0 p (fun k => sumTo (fun k => CMath.fabs (slide x p (i + 1) * (c! 1 / ((p : Int) : R)) - x (i - k))) k)
        rfl rfl rfl (by omega) ?_ ?_
      · intro k _ hk
        rw [rd_at (i - k) (by omega) (by omega)]
        rfl
      · run_simp []
        rw [pre_snoc (m := i + 1 + 1 - p) (by omega)]
        simp only [mdAcc, show i + 1 - p + p = i + 1 by omega, Nat.add_sub_cancel]
    · rw [if_neg (by omega), show i + 1 - p = 0 by omega, show i + 1 + 1 - p = 0 by omega]
  · rw [finish_ok (by simp; omega), show N + 1 - p = N - (p - 1) by omega]

end Verif
