/- frama: the runs (helper lemmas). -/
import Verif.Proof.Fractal

set_option linter.unusedSectionVars false
set_option linter.unusedSimpArgs false
set_option linter.unusedVariables false

namespace Verif
open Spec

section Field
variable {R : Type} [Field R] [LinearOrder R] [IsStrictOrderedRing R] [CMath R]

theorem winMax_join (a b : Nat) (ha : 1 ≤ a) (hb : 1 ≤ b) (f : Nat → R) (j : Nat) :
    winMax (a + b) f j = max (winMax a f j) (winMax b f (j + a)) := by
  apply le_antisymm
  · obtain ⟨k, h1, h2, e⟩ := winMax_mem (a + b) (by omega) f j
    rw [e]
    rcases Nat.lt_or_ge k (j + a) with h | h
    · exact le_max_of_le_left (le_winMax _ _ _ _ (by omega) (by omega))
    · exact le_max_of_le_right (le_winMax _ _ _ _ (by omega) (by omega))
  · refine max_le ?_ ?_
    · obtain ⟨k, h1, h2, e⟩ := winMax_mem a ha f j
      rw [e]; exact le_winMax _ _ _ _ (by omega) (by omega)
    · obtain ⟨k, h1, h2, e⟩ := winMax_mem b hb f (j + a)
      rw [e]; exact le_winMax _ _ _ _ (by omega) (by omega)
theorem winMin_join (a b : Nat) (ha : 1 ≤ a) (hb : 1 ≤ b) (f : Nat → R) (j : Nat) :
    winMin (a + b) f j = min (winMin a f j) (winMin b f (j + a)) := by
  apply le_antisymm
  · refine le_min ?_ ?_
    · obtain ⟨k, h1, h2, e⟩ := winMin_mem a ha f j
      rw [e]; exact winMin_le _ _ _ _ (by omega) (by omega)
    · obtain ⟨k, h1, h2, e⟩ := winMin_mem b hb f (j + a)
      rw [e]; exact winMin_le _ _ _ _ (by omega) (by omega)
  · obtain ⟨k, h1, h2, e⟩ := winMin_mem (a + b) (by omega) f j
    rw [e]
    rcases Nat.lt_or_ge k (j + a) with h | h
    · exact min_le_of_left_le (winMin_le _ _ _ _ (by omega) (by omega))
    · exact min_le_of_right_le (winMin_le _ _ _ _ (by omega) (by omega))
theorem winMax_one (f : Nat → R) (j : Nat) : winMax 1 f j = f j := by simp [winMax]
theorem winMin_one (f : Nat → R) (j : Nat) : winMin 1 f j = f j := by simp [winMin]

theorem ifMax (a b : R) : (if a < b then b else a) = max a b := by
  by_cases h : a < b
  · rw [if_pos h, max_eq_right h.le]
  · rw [if_neg h, max_eq_left (not_lt.1 h)]
theorem ifMin (a b : R) : (if b < a then b else a) = min a b := by
  by_cases h : b < a
  · rw [if_pos h, min_eq_right h.le]
  · rw [if_neg h, min_eq_left (not_lt.1 h)]

/-- Greatest of the `c` values starting at `j`, the first counting anyway. -/
def grMax (f : Nat → R) (j c : Nat) : R := winMax (max c 1) f j
def grMin (f : Nat → R) (j c : Nat) : R := winMin (max c 1) f j
theorem grMax_succ (f : Nat → R) (j c : Nat) : grMax f j (c + 1) = max (grMax f j c) (f (j + c)) := by
  unfold grMax
  cases c with
  | zero => simp [winMax_one]
  | succ c => rw [show max (c + 1 + 1) 1 = (c + 1) + 1 by omega, winMax_join _ 1 (by omega) le_rfl, winMax_one, show max (c + 1) 1 = c + 1 by omega]
theorem grMin_succ (f : Nat → R) (j c : Nat) : grMin f j (c + 1) = min (grMin f j c) (f (j + c)) := by
  unfold grMin
  cases c with
  | zero => simp [winMin_one]
  | succ c => rw [show max (c + 1 + 1) 1 = (c + 1) + 1 by omega, winMin_join _ 1 (by omega) le_rfl, winMin_one, show max (c + 1) 1 = c + 1 by omega]

variable (x : Nat → HL R)
def hiS (k : Nat) : R := (x k).high
def loS (k : Nat) : R := (x k).low

def framaT (ws wc j : Nat) : FramaW R :=
  ⟨grMax (hiS x) ws (j - ws), grMin (loS x) ws (j - ws),
   if j ≤ wc then none else some ⟨winMax (wc - ws) (hiS x) ws, winMin (wc - ws) (loS x) ws⟩,
   if j ≤ wc then none else some ⟨grMax (hiS x) wc (j - wc), grMin (loS x) wc (j - wc)⟩⟩

theorem framaScan_ok {N ws wc i : Nat} (h1 : ws < wc) (h2 : wc ≤ i) (h3 : i < N) :
    framaScan (pre x N) (ws : Int) (wc : Int) (i : Int) = .ok ⟨winMax (i + 1 - ws) (hiS x) ws, winMin (i + 1 - ws) (loS x) ws,
      some ⟨winMax (wc - ws) (hiS x) ws, winMin (wc - ws) (loS x) ws⟩,
      some ⟨winMax (i + 1 - wc) (hiS x) wc, winMin (i + 1 - wc) (loS x) wc⟩⟩ := by
  unfold framaScan
  rw [rd_pre_nat _ _ _ (by omega), bind_ok]
  have h := forUp_nat (f := fun (j : Int) (s : FramaW R) => (do
    let c ← rd (pre x N) j
    let first := if j = (wc : Int) then some ⟨s.hi, s.lo⟩ else s.first
    let hi := if s.hi < c.high then c.high else s.hi
    let lo := if c.low < s.lo then c.low else s.lo
    if (wc : Int) ≤ j then
      if j = wc then return ⟨hi, lo, first, some c⟩
      else
        let q ← getV s.second
        return ⟨hi, lo, first, some ⟨if q.high < c.high then c.high else q.high, if c.low < q.low then c.low else q.low⟩⟩
    else return ⟨hi, lo, first, s.second⟩ : M (FramaW R))) (framaT x ws wc) (show ws ≤ i + 1 by omega) (fun j hj1 hj2 => ?_)
  · have e0 : framaT x ws wc ws = ⟨(x ws).high, (x ws).low, none, none⟩ := by
      simp [framaT, grMax, grMin, winMax_one, winMin_one, if_pos h1.le, hiS, loS]
    rw [e0] at h
    rw [show ((i : Int) + 1) = ((i + 1 : Nat) : Int) by push_cast; rfl]
    refine h.trans ?_
    simp only [framaT, if_neg (show ¬ i + 1 ≤ wc by omega), grMax, grMin, show max (i + 1 - ws) 1 = i + 1 - ws by omega,
      show max (i + 1 - wc) 1 = i + 1 - wc by omega]
  · dsimp only
    rw [rd_pre_nat _ _ _ (by omega), bind_ok]
    have eh : (if (framaT x ws wc j).hi < (x j).high then (x j).high else (framaT x ws wc j).hi) = (framaT x ws wc (j + 1)).hi := by
      rw [ifMax]; simp only [framaT]
      rw [show j + 1 - ws = (j - ws) + 1 by omega, grMax_succ, show ws + (j - ws) = j by omega]; rfl
    have el : (if (x j).low < (framaT x ws wc j).lo then (x j).low else (framaT x ws wc j).lo) = (framaT x ws wc (j + 1)).lo := by
      rw [ifMin]; simp only [framaT]
      rw [show j + 1 - ws = (j - ws) + 1 by omega, grMin_succ, show ws + (j - ws) = j by omega]; rfl
    rw [eh, el]
    by_cases ha : j < wc
    · rw [if_neg (by omega), if_neg (by omega)]
      simp only [pure_eq, framaT, if_pos (show j ≤ wc by omega), if_pos (show j + 1 ≤ wc by omega)]
    rw [if_pos (by omega)]
    by_cases hb : j = wc
    · subst hb
      rw [if_pos rfl, if_pos rfl]
      simp only [pure_eq, framaT, if_neg (show ¬ j + 1 ≤ j by omega), grMax, grMin, show max (j - ws) 1 = j - ws by omega,
        show j + 1 - j = 1 by omega, show max 1 1 = 1 from rfl, winMax_one, winMin_one]
      rfl
    · rw [if_neg (by omega), if_neg (by omega)]
      have hs : (framaT x ws wc j).second = some ⟨grMax (hiS x) wc (j - wc), grMin (loS x) wc (j - wc)⟩ := by
        simp only [framaT]; rw [if_neg (by omega)]
      rw [hs]
      simp only [getV, bind_ok, ifMax, ifMin]
      rw [show max (grMax (hiS x) wc (j - wc)) (x j).high = grMax (hiS x) wc (j + 1 - wc) by
          rw [show j + 1 - wc = (j - wc) + 1 by omega, grMax_succ, show wc + (j - wc) = j by omega]; rfl,
        show min (grMin (loS x) wc (j - wc)) (x j).low = grMin (loS x) wc (j + 1 - wc) by
          rw [show j + 1 - wc = (j - wc) + 1 by omega, grMin_succ, show wc + (j - wc) = j by omega]; rfl]
      simp only [pure_eq, framaT, if_neg (show ¬ j ≤ wc by omega), if_neg (show ¬ j + 1 ≤ wc by omega)]

theorem framaAlpha_eq (a : R) : framaAlpha a = min 1 (max (1 / 100) a) := by
  unfold framaAlpha
  rw [ifMax, ifMin]
  push_cast
  rw [max_comm, min_comm]
theorem framaAlphaS_eq (a : R) : framaAlphaS a = min 1 (max (1 / 100) a) := by
  unfold framaAlphaS
  rw [ifMax, ifMin]
  push_cast
  rfl

theorem framaExp_eq (w : R) (h j : Nat) : framaExp w (rangePerBar h x (j + h)) (rangePerBar h x j) (rangePerBar (2 * h) x j) =
    CMath.exp (w * (fractalDim h x j - 1)) := by
  unfold framaExp fractalDim
  push_cast
  rfl

theorem framaNext_eq (a : R) (r : HL R) (f : R) : framaNext a r f = a * ((r.high + r.low) / 2) + (1 - a) * f := by
  unfold framaNext; push_cast; ring

theorem frama_new_le (n h : Nat) (w : R) (hn : 2 * h ≤ n) (hh : 1 ≤ h) :
    framaNext (min 1 (max (1 / 100) (CMath.exp (w * (fractalDim h x (n + 1 - 2 * h) - 1))))) (x n) (framaAvg h w x (n - 1)) = framaAvg h w x n := by
  obtain ⟨m, rfl⟩ : ∃ m, n = m + 1 := ⟨n - 1, by omega⟩
  rw [framaNext_eq, framaAvg, if_neg (by omega), Nat.add_sub_cancel]
  rfl

theorem frama_run [LawfulTrunc R] [LawfulRound R] (o : Nat → R) (h : Nat) (ho : o 0 = (((2 * h : Nat) : Int) : R)) (hh : 1 ≤ h)
    (hb : 2 * h ≤ 2147483647) (h2 : ¬ o 1 < c! 2) (hbd : bound (o 0) = .ok ((2 * h : Nat) : Int)) :
    Computes framaBatch o 0 fun x => framaAvg h (CMath.log (c! 2 / (c! 1 + o 1))) x := by
  intro x N
  generalize hw : CMath.log (c! 2 / (c! 1 + o 1)) = w
  have hc : toInt (o 0) = .ok ((2 * h : Nat) : Int) := toInt_cast' ho (by omega)
  have hhalf : toInt (o 0 / c! 2) = .ok (h : Int) := by
    refine toInt_cast' ?_ (by omega)
    rw [ho]; push_cast; field_simp
  have h1 : ¬ o 0 < c! 1 := not_lt_one hc (by omega)
  unfold framaBatch
  rw [if_neg h1, if_neg h2, hc, bind_ok, if_neg (by omega), framaStart, bind_ok]
  by_cases hN : N = 0
  · subst hN; rw [if_pos (by simp)]; rfl
  rw [if_neg (by simp; omega), hhalf, bind_ok, hbd, bind_ok]
  dsimp only
  rw [hw]
  refine forUp_bind 0 (min N (2 * h)) (fun n => (if n = 0 then none else some (framaAvg h w x (n - 1)), pre (framaAvg h w x) n)) rfl
    (by simp) (by simp) (by omega) (fun i _ hi => ?_) ?_
  · rw [rd_pre_nat _ _ _ (by omega), bind_ok]
    have e : ((x i).high + (x i).low) / c! 2 = framaAvg h w x i := by
      cases i with
      | zero => simp [framaAvg]
      | succ i => rw [framaAvg, if_pos (by omega)]; simp
    rw [e, wr_pre _ _ i (framaAvg h w x i) (by simp; omega) rfl, bind_ok]
    simp
  by_cases hN2 : N ≤ 2 * h
  · rw [forUp_empty (by simp; omega), min_eq_left hN2]
    rfl
  refine forUp_bind (2 * h) N (fun n => (some (framaAvg h w x (n - 1)), pre (framaAvg h w x) n)) rfl (by simp)
    (by simp [show min N (2 * h) = 2 * h by omega, show h ≠ 0 by omega]) (by omega) (fun i h3 h4 => ?_) rfl
  have hws : CMath.trunc (((i : Int) : R) - o 0 + c! 1) = ((i + 1 - 2 * h : Nat) : Int) := by
    rw [show ((i : Int) : R) - o 0 + c! 1 = (((i + 1 - 2 * h : Nat) : Int) : R) by
      rw [ho, show ((i + 1 - 2 * h : Nat) : Int) = (i : Int) - ((2 * h : Nat) : Int) + 1 by omega]; push_cast; ring]
    exact LawfulTrunc.trunc_intCast _
  rw [hws, show (i : Int) - h + 1 = ((i + 1 - h : Nat) : Int) by omega, framaScan_ok x (by omega) (by omega) h4, bind_ok]
  simp only [getV, bind_ok, rd_pre_nat _ _ _ h4]
  have e1 : (winMax (i + 1 - (i + 1 - h)) (hiS x) (i + 1 - h) - winMin (i + 1 - (i + 1 - h)) (loS x) (i + 1 - h)) / ((h : Int) : R) =
      rangePerBar h x (i + 1 - 2 * h + h) := by
    rw [rangePerBar, show i + 1 - (i + 1 - h) = h by omega, show i + 1 - 2 * h + h = i + 1 - h by omega]; simp [hiS, loS]; rfl
  have e2 : (winMax (i + 1 - h - (i + 1 - 2 * h)) (hiS x) (i + 1 - 2 * h) - winMin (i + 1 - h - (i + 1 - 2 * h)) (loS x) (i + 1 - 2 * h)) / ((h : Int) : R) =
      rangePerBar h x (i + 1 - 2 * h) := by
    rw [rangePerBar, show i + 1 - h - (i + 1 - 2 * h) = h by omega]; simp; rfl
  have e3 : (winMax (i + 1 - (i + 1 - 2 * h)) (hiS x) (i + 1 - 2 * h) - winMin (i + 1 - (i + 1 - 2 * h)) (loS x) (i + 1 - 2 * h)) / o 0 =
      rangePerBar (2 * h) x (i + 1 - 2 * h) := by
    rw [rangePerBar, show i + 1 - (i + 1 - 2 * h) = 2 * h by omega, ho]; simp; rfl
  rw [e1, e2, e3, framaExp_eq, framaAlpha_eq, frama_new_le x i h w h3 hh, wr_pre _ _ i (framaAvg h w x i) (by simp; omega) rfl, bind_ok]
  simp

/-- With a fractional period the first loop goes one bar further than the second assumes: one write too many. -/
theorem frama_frac [LawfulTrunc R] [LawfulRound R] (o : Nat → R) (h : Nat) (hh : 1 ≤ h) (hc : toInt (o 0) = .ok ((2 * h : Nat) : Int))
    (hhalf : toInt (o 0 / c! 2) = .ok (h : Int)) (h2 : ¬ o 1 < c! 2) (hbd : bound (o 0) = .ok ((2 * h + 1 : Nat) : Int))
    (htr : ∀ i : Nat, 2 * h ≤ i → CMath.trunc (((i : Int) : R) - o 0 + c! 1) = ((i - 2 * h : Nat) : Int)) (x : Nat → HL R) (N : Nat)
    (hN : 2 * h < N) : framaBatch o (pre x N) = .error .oobWrite := by
  generalize hw : CMath.log (c! 2 / (c! 1 + o 1)) = w
  have h1 : ¬ o 0 < c! 1 := not_lt_one hc (by omega)
  unfold framaBatch
  rw [if_neg h1, if_neg h2, hc, bind_ok, if_neg (by omega), framaStart, bind_ok, if_neg (by simp; omega), hhalf, bind_ok, hbd, bind_ok]
  dsimp only
  have hm : min (N : Int) ((2 * h + 1 : Nat) : Int) = ((2 * h + 1 : Nat) : Int) := by omega
  refine forUp_bind 0 (2 * h + 1) (fun n => (if n = 0 then none else some (((x (n - 1)).high + (x (n - 1)).low) / c! 2),
    pre (fun i => ((x i).high + (x i).low) / c! 2) n)) rfl (by rw [length_pre]; exact hm) (by simp) (by omega) (fun i _ hi => ?_) ?_
  · rw [rd_pre_nat _ _ _ (by omega), bind_ok, wr_pre _ _ i (((x i).high + (x i).low) / c! 2) (by simp; omega) rfl, bind_ok]
    simp
  refine bind_err ?_
  have step : ∀ (i : Nat) (t : Option R × List R), 2 * h ≤ i → i < N → t.1.isSome →
      ∃ q v, framaScan (pre x N) (CMath.trunc (((i : Int) : R) - o 0 + c! 1)) ((i : Int) - h + 1) i = .ok q ∧ q.first.isSome ∧ q.second.isSome ∧
        rd (pre x N) (i : Int) = .ok (x i) ∧ t.1 = some v := by
    intro i t ha hb ht
    rw [htr i ha, show (i : Int) - h + 1 = ((i + 1 - h : Nat) : Int) by omega, framaScan_ok x (by omega) (by omega) hb]
    obtain ⟨v, hv⟩ := Option.isSome_iff_exists.1 ht
    exact ⟨_, v, rfl, rfl, rfl, rd_pre_nat _ _ _ hb, hv⟩
  refine forUp_inv_err (fun i t => t.1.isSome ∧ t.2.length = i + 1) (2 * h) (N - 1) rfl ⟨rfl, by simp⟩ (by omega) (by simp; omega) ?_ ?_
  · rintro i t ha hb ⟨ht, hl⟩
    obtain ⟨q, v, hq, hf, hs, hr, hv⟩ := step i t ha (by omega) ht
    obtain ⟨a, ha'⟩ := Option.isSome_iff_exists.1 hf
    obtain ⟨b, hb'⟩ := Option.isSome_iff_exists.1 hs
    rw [hq]
    simp only [bind_ok, ha', hb', getV, hr, hv]
    unfold wr
    rw [if_pos (by simp; omega)]
    exact ⟨_, rfl, rfl, by simp [hl]⟩
  · rintro t ⟨ht, hl⟩
    obtain ⟨q, v, hq, hf, hs, hr, hv⟩ := step (N - 1) t (by omega) (by omega) ht
    obtain ⟨a, ha'⟩ := Option.isSome_iff_exists.1 hf
    obtain ⟨b, hb'⟩ := Option.isSome_iff_exists.1 hs
    rw [hq]
    simp only [bind_ok, ha', hb', getV, hr, hv]
    unfold wr
    rw [if_neg (by simp; omega)]
    rfl

/-! The stream -/

variable {rep : R → R → Bool} {le : R → R → Prop}

theorem Ext.deq_step (C : Rep rep le) {s : Nat → R} {h m : Nat} {base : Int} (hh : 1 ≤ h) {e : Ext R} (H : Ext.Kept le s h base m e)
    (hm : h ≤ m + 1) {d : List R} {due p oldest newest : Int} (hd : ∀ j : Nat, j < h → rd d (oldest - j) = .ok (s (m + 2 - h + j)))
    (hn : newest = oldest - (h - 1 : Nat)) (hdue : p - due = base + (m + 1 : Nat) - h)
    (hold : p - oldest = base + (m + 2 - h : Nat)) :
    ∃ e', e.deq rep d due p oldest newest (h : Int) = .ok e' ∧ Ext.Kept le s h base (m + 1) e' := by
  obtain ⟨a, hv, hi, h1, h2, h3⟩ := H
  unfold Ext.deq
  rw [hi]
  simp only [getV, bind_ok]
  by_cases hc : base + (a : Int) = p - due
  · rw [if_pos hc]
    have hd0 := hd 0 (by omega)
    rw [show oldest - ((0 : Nat) : Int) = oldest by simp] at hd0
    rw [hd0, bind_ok]
    obtain ⟨e', he, a', hv', hi', h4, h5, h6⟩ := forUp_inv (f := fun j (e : Ext R) => (do
        let v ← rd d (oldest - j)
        return if rep v (← getV e.val) then ⟨some v, some (p - (oldest - j))⟩ else e : M (Ext R)))
      (fun j e => ∃ a : Nat, e.val = some (s a) ∧ e.idx = some (base + a) ∧ m + 2 - h ≤ a ∧ (a : Int) < (m + 2 - h : Nat) + j ∧
        ∀ k : Nat, m + 2 - h ≤ k → (k : Int) < (m + 2 - h : Nat) + j → le (s k) (s a)) (lo := 1) (hi := (h : Int))
      (s := (⟨some (s (m + 2 - h + 0)), some (p - oldest)⟩ : Ext R)) (by omega)
      ⟨m + 2 - h, rfl, by rw [hold], le_rfl, by omega, fun k hk1 hk2 => by rw [show k = m + 2 - h by omega]; exact C.rfl' _⟩
      (fun j e hj1 hj2 hinv => by
        obtain ⟨b, hb1, hb2, hb3, hb4, hb5⟩ := hinv
        obtain ⟨j, rfl⟩ : ∃ k : Nat, j = (k : Int) := ⟨j.toNat, by omega⟩
        rw [hd j (by omega), bind_ok, hb1]
        simp only [getV, bind_ok]
        by_cases hr : rep (s (m + 2 - h + j)) (s b) = true
        · rw [if_pos hr]
          refine ⟨_, rfl, m + 2 - h + j, rfl, ?_, by omega, by push_cast; omega, fun k hk1 hk2 => ?_⟩
          · dsimp only; congr 1; omega
          · rcases Nat.lt_or_ge k (m + 2 - h + j) with hlt | hge
            · exact C.trans _ _ _ (hb5 k hk1 (by omega)) ((C.iff _ _).1 hr)
            · rw [show k = m + 2 - h + j by omega]; exact C.rfl' _
        · rw [if_neg hr]
          refine ⟨_, rfl, b, hb1, hb2, hb3, by omega, fun k hk1 hk2 => ?_⟩
          rcases Nat.lt_or_ge k (m + 2 - h + j) with hlt | hge
          · exact hb5 k hk1 (by omega)
          · rw [show k = m + 2 - h + j by omega]; exact C.total _ _ (fun h' => hr ((C.iff _ _).2 h')))
    refine ⟨e', he, a', hv', hi', by omega, by omega, fun k hk1 hk2 => h6 k (by omega) (by omega)⟩
  · rw [if_neg hc]
    have hdn := hd (h - 1) (by omega)
    rw [← hn, show m + 2 - h + (h - 1) = m + 1 by omega] at hdn
    rw [hdn, bind_ok, hv]
    simp only [getV, bind_ok]
    by_cases hr : rep (s (m + 1)) (s a) = true
    · rw [if_pos hr]
      refine ⟨_, rfl, m + 1, rfl, ?_, le_rfl, by omega, fun k hk1 hk2 => ?_⟩
      · dsimp only; congr 1; omega
      · rcases Nat.lt_or_ge k (m + 1) with hlt | hge
        · exact C.trans _ _ _ (h3 k (by omega) (by omega)) ((C.iff _ _).1 hr)
        · rw [show k = m + 1 by omega]; exact C.rfl' _
    · rw [if_neg hr]
      refine ⟨_, rfl, a, hv, hi, by omega, by omega, fun k hk1 hk2 => ?_⟩
      rcases Nat.lt_or_ge k (m + 1) with hlt | hge
      · exact h3 k (by omega) (by omega)
      · rw [show k = m + 1 by omega]; exact C.total _ _ (fun h' => hr ((C.iff _ _).2 h'))

theorem framaPhases_ordered (v w : R) (ip half halfN : Int) (hv : (ip : R) ≤ v) (hip : 0 ≤ ip) :
    Phases.OrderedFrom 0 (framaPhases (v, ip, half, halfN, w)) := by
  have hhalf : ((ip / 2 : Int) : R) ≤ v / c! 2 := by
    have : ((ip / 2 : Int) : R) * 2 ≤ (ip : R) := by
      have := Int.ediv_mul_le ip (b := 2) (by omega)
      exact_mod_cast this
    push_cast; linarith
  refine ⟨?_, fun p _ => ⟨_, List.getLast_mem (List.cons_ne_nil _ _), rfl⟩⟩
  unfold framaPhases
  intro p h0 hc0
  refine ⟨decide_eq_false (by have := of_decide_eq_false hc0; omega), ?_⟩
  intro p1 h1 hc1
  refine ⟨cast_lt_mono hc1, ?_⟩
  intro p2 h2 hc2
  refine ⟨?_, ?_⟩
  · have h3 := of_decide_eq_false hc2
    have h4 := of_decide_eq_false hc1
    have h5 : ip / 2 ≤ p1 := by
      have h6 := le_trans hhalf (not_lt.1 h4)
      exact_mod_cast h6
    exact decide_eq_false (by omega)
  intro p3 h3 hc3
  refine ⟨cast_lt_mono hc3, ?_⟩
  intro p4 h4 hc4
  exact absurd hc4 (by simp)

/-- The position up to which the older half is tracked before bar `n`. -/
def twoAt (h n : Nat) : Nat := if n ≤ h then n - 1 else if n ≤ 2 * h then h - 1 else n - 1 - h

structure FramaInv (h : Nat) (w : R) (x : Nat → HL R) (n : Nat) (s : FramaT R) : Prop where
  filt : 1 ≤ n → s.filt = framaAvg h w x (n - 1)
  high : s.high = pre (fun k => hiS x (n - 1 - k)) (min n (2 * h))
  low : s.low = pre (fun k => loS x (n - 1 - k)) (min n (2 * h))
  two : 1 ≤ n → HiLo.Kept (hiS x) (loS x) h 0 (twoAt h n) s.two
  one : h < n → HiLo.Kept (fun k => hiS x (h + k)) (fun k => loS x (h + k)) h (h : Int) (n - 1 - h) s.one

theorem cons_pre (f g : Nat → R) (m : Nat) (v : R) (h0 : g 0 = v) (h : ∀ k, k < m → g (k + 1) = f k) : v :: pre f m = pre g (m + 1) := by
  apply List.ext_getElem?
  intro i
  cases i with
  | zero => simp [pre, h0]
  | succ i =>
    simp only [List.getElem?_cons_succ]
    by_cases hi : i < m
    · rw [pre_getElem? f m i hi, pre_getElem? g _ _ (by omega), h i hi]
    · rw [List.getElem?_eq_none (by simp [length_pre]; omega), List.getElem?_eq_none (by simp [length_pre]; omega)]

theorem framaPush_inv {h : Nat} {w : R} {x : Nat → HL R} {n : Nat} {s : FramaT R} (hn : n < 2 * h) (H : FramaInv h w x n s) :
    (framaPush (x n) s).filt = framaAvg h w x n ∧ (framaPush (x n) s).high = pre (fun k => hiS x (n - k)) (min (n + 1) (2 * h)) ∧
      (framaPush (x n) s).low = pre (fun k => loS x (n - k)) (min (n + 1) (2 * h)) := by
  refine ⟨?_, ?_, ?_⟩
  · unfold framaPush
    cases n with
    | zero => simp [framaAvg]
    | succ n => rw [framaAvg, if_pos hn]; simp
  · unfold framaPush
    dsimp only
    rw [H.high, min_eq_left (show n ≤ 2 * h by omega), min_eq_left (show n + 1 ≤ 2 * h by omega)]
    exact cons_pre _ _ _ _ rfl (fun k hk => by rw [show n - (k + 1) = n - 1 - k by omega])
  · unfold framaPush
    dsimp only
    rw [H.low, min_eq_left (show n ≤ 2 * h by omega), min_eq_left (show n + 1 ≤ 2 * h by omega)]
    exact cons_pre _ _ _ _ rfl (fun k hk => by rw [show n - (k + 1) = n - 1 - k by omega])

theorem framaMove_eq {h : Nat} (hh : 1 ≤ h) {v w : R} (hv : v = (((2 * h : Nat) : Int) : R)) (x : Nat → HL R) (j : Nat) :
    framaMove v w (winMax h (hiS x) (j + h)) (winMin h (loS x) (j + h)) (winMax h (hiS x) j) (winMin h (loS x) j) =
      min 1 (max (1 / 100) (CMath.exp (w * (fractalDim h x j - 1)))) := by
  have hh0 : (h : R) ≠ 0 := by exact_mod_cast (by omega : h ≠ 0)
  have e : v / c! 2 = (h : R) := by rw [hv]; push_cast; field_simp
  unfold framaMove
  rw [framaAlphaS_eq, ifMax, e, ← framaExp_eq]
  rw [show (if winMin h (loS x) (j + h) < winMin h (loS x) j then winMin h (loS x) (j + h) else winMin h (loS x) j) =
    min (winMin h (loS x) j) (winMin h (loS x) (j + h)) from ifMin _ _, ← winMax_join h h hh hh, ← winMin_join h h hh hh, ← two_mul]
  unfold rangePerBar
  rw [show ((2 * h : Nat) : R) = v by rw [hv]; push_cast; rfl]
  rfl

theorem frama_stream_run [LawfulTrunc R] [LawfulRound R] (o : Nat → R) (h : Nat) (ho : o 0 = (((2 * h : Nat) : Int) : R)) (hh : 1 ≤ h)
    (hb : 2 * h ≤ 2147483647) (hbd : bound (o 0 / c! 2) = .ok (h : Int)) :
    (frama (R := R)).StreamComputes o 0 fun x => framaAvg h (CMath.log (c! 2 / (c! 1 + o 1))) x := by
  generalize hw : CMath.log (c! 2 / (c! 1 + o 1)) = w
  have hc : toInt (o 0) = .ok ((2 * h : Nat) : Int) := toInt_cast' ho (by omega)
  have hhalf : toInt (o 0 / c! 2) = .ok (h : Int) := by
    refine toInt_cast' ?_ (by omega)
    rw [ho]; push_cast; field_simp
  have h1 : ¬ o 0 < c! 1 := not_lt_one hc (by omega)
  have hh2 : (((2 * h : Nat) : Int) / 2 : Int) = (h : Int) := by omega
  have hcond2 : ∀ n : Nat, ((((n : Int)) : R) < o 0 / c! 2) ↔ n < h := by
    intro n
    rw [show o 0 / c! 2 = ((h : Int) : R) by rw [ho]; push_cast; field_simp, Int.cast_lt]; omega
  have hcond4 : ∀ n : Nat, ((((n : Int)) : R) < o 0) ↔ n < 2 * h := by
    intro n; rw [ho, Int.cast_lt]; omega
  refine streamComputes_of' (I := frama) (k := (o 0, ((2 * h : Nat) : Int), (h : Int), (h : Int), w))
    (s0 := (⟨c! 0, ⟨⟨some (c! 0), some 0⟩, ⟨some (c! 0), some 0⟩⟩, ⟨⟨some (c! 0), some 0⟩, ⟨some (c! 0), some 0⟩⟩, [], []⟩ : FramaT R))
    ?_ (by
      rw [show -((0 : Nat) : Int) = 0 from rfl]
      exact framaPhases_ordered (o 0) w _ _ _ (by rw [ho]) (by omega)) (fun x n s => FramaInv h w x n s)
    (fun x => ⟨by omega, by simp, by simp, by omega, by omega⟩) ?_
  · simp only [frama, framaNew, if_neg h1, hc, bind_ok, framaStart, hhalf, hbd, hw]
    rw [if_neg (by omega)]
    rfl
  intro x n s H
  simp only [frama, barStep, framaPhases, List.find?, hh2]
  rw [show -((0 : Nat) : Int) + (n : Int) = (n : Int) by simp, if_neg (show ¬ n < 0 by omega), Nat.sub_zero]
  by_cases h0 : n = 0
  · subst h0
    rw [decide_eq_true (by omega)]
    dsimp only
    obtain ⟨f1, f2, f3⟩ := framaPush_inv (by omega) H
    rw [f1]
    refine ⟨_, rfl, fun _ => rfl, f2, f3, fun _ => ?_, fun hlt => by omega⟩
    have : twoAt h (0 + 1) = 0 := by unfold twoAt; rw [if_pos (by omega)]
    rw [this]
    exact ⟨Ext.set_init repMax_rep _ h hh 0 _ _ rfl (by simp), Ext.set_init repMin_rep _ h hh 0 _ _ rfl (by simp)⟩
  rw [decide_eq_false (by omega)]
  dsimp only
  by_cases h2 : n < h
  · rw [decide_eq_true ((hcond2 n).2 h2)]
    dsimp only
    obtain ⟨f1, f2, f3⟩ := framaPush_inv (by omega) H
    rw [f1]
    refine ⟨_, rfl, fun _ => rfl, f2, f3, fun _ => ?_, fun hlt => by omega⟩
    have e1 : twoAt h n = n - 1 := by unfold twoAt; rw [if_pos (by omega)]
    have e2 : twoAt h (n + 1) = n - 1 + 1 := by unfold twoAt; rw [if_pos (by omega)]; omega
    have hk := H.two (by omega)
    rw [e1] at hk
    rw [e2]
    have := HiLo.take_step hh hk (by omega) (n : Int) (by omega)
    rw [show n - 1 + 1 = n by omega] at this ⊢
    exact this
  rw [decide_eq_false (fun hc => h2 ((hcond2 n).1 hc))]
  dsimp only
  by_cases h3 : n = h
  · subst h3
    rw [decide_eq_true rfl]
    dsimp only
    obtain ⟨f1, f2, f3⟩ := framaPush_inv (by omega) H
    rw [f1]
    refine ⟨_, rfl, fun _ => rfl, f2, f3, fun _ => ?_, fun hlt => ?_⟩
    · have e1 : twoAt n n = n - 1 := by unfold twoAt; rw [if_pos (by omega)]
      have e2 : twoAt n (n + 1) = n - 1 := by unfold twoAt; rw [if_neg (by omega), if_pos (by omega)]
      have hk := H.two (by omega)
      rw [e1] at hk
      rw [e2]; exact hk
    · rw [show n + 1 - 1 - n = 0 by omega]
      exact ⟨Ext.set_init repMax_rep _ n hh n _ _ (by simp [hiS]) rfl, Ext.set_init repMin_rep _ n hh n _ _ (by simp [loS]) rfl⟩
  rw [decide_eq_false (by omega)]
  dsimp only
  by_cases h4 : n < 2 * h
  · rw [decide_eq_true ((hcond4 n).2 h4)]
    dsimp only
    obtain ⟨f1, f2, f3⟩ := framaPush_inv (by omega) H
    rw [f1]
    refine ⟨_, rfl, fun _ => rfl, f2, f3, fun _ => ?_, fun hlt => ?_⟩
    · have e1 : twoAt h n = h - 1 := by unfold twoAt; rw [if_neg (by omega), if_pos (by omega)]
      have e2 : twoAt h (n + 1) = h - 1 := by unfold twoAt; rw [if_neg (by omega), if_pos (by omega)]
      have hk := H.two (by omega)
      rw [e1] at hk
      rw [e2]; exact hk
    · have hk := H.one (by omega)
      have := HiLo.take_step hh hk (by omega) (n : Int) (by omega)
      rw [show n + 1 - 1 - h = n - 1 - h + 1 by omega]
      rw [show h + (n - 1 - h + 1) = n by omega] at this
      exact this
  rw [decide_eq_false (fun hc => h4 ((hcond4 n).1 hc))]
  dsimp only
  have ph : dqPush s.high (x n).high = .ok (pre (fun k => hiS x (n - k)) (2 * h)) := by
    rw [H.high, min_eq_right (show 2 * h ≤ n by omega)]
    exact dqPush_pre _ _ _ (by omega) _ rfl (fun k hk => by rw [show n - (k + 1) = n - 1 - k by omega])
  have pl : dqPush s.low (x n).low = .ok (pre (fun k => loS x (n - k)) (2 * h)) := by
    rw [H.low, min_eq_right (show 2 * h ≤ n by omega)]
    exact dqPush_pre _ _ _ (by omega) _ rfl (fun k hk => by rw [show n - (k + 1) = n - 1 - k by omega])
  have e1 : twoAt h n = n - 1 - h := by unfold twoAt; rw [if_neg (by omega)]; split_ifs <;> omega
  have e2 : twoAt h (n + 1) = n - 1 - h + 1 := by unfold twoAt; rw [if_neg (by omega), if_neg (by omega)]; omega
  have k2 := H.two (by omega)
  rw [e1] at k2
  have k1 := H.one (by omega)
  have rh : ∀ (f : Nat → R) (q : Int) (k : Nat), q = (k : Int) → k < 2 * h → rd (pre (fun k => f (n - k)) (2 * h)) q = .ok (f (n - k)) := by
    intro f q k hq hk; subst hq; exact rd_pre_nat _ _ _ hk
  obtain ⟨hi2, d1, m1⟩ := Ext.deq_step repMax_rep hh k2.1 (by omega) (d := pre (fun k => hiS x (n - k)) (2 * h)) (due := ((2 * h : Nat) : Int))
    (p := n) (oldest := ((2 * h : Nat) : Int) - 1) (newest := h)
    (fun j hj => by rw [rh (hiS x) _ (2 * h - 1 - j) (by omega) (by omega), show n - (2 * h - 1 - j) = n - 1 - h + 2 - h + j by omega])
    (by omega) (by omega) (by omega)
  obtain ⟨lo2, d2, m2⟩ := Ext.deq_step repMin_rep hh k2.2 (by omega) (d := pre (fun k => loS x (n - k)) (2 * h)) (due := ((2 * h : Nat) : Int))
    (p := n) (oldest := ((2 * h : Nat) : Int) - 1) (newest := h)
    (fun j hj => by rw [rh (loS x) _ (2 * h - 1 - j) (by omega) (by omega), show n - (2 * h - 1 - j) = n - 1 - h + 2 - h + j by omega])
    (by omega) (by omega) (by omega)
  obtain ⟨hi1, d3, m3⟩ := Ext.deq_step repMax_rep hh k1.1 (by omega) (d := pre (fun k => hiS x (n - k)) (2 * h)) (due := (h : Int))
    (p := n) (oldest := (h : Int) - 1) (newest := 0)
    (fun j hj => by rw [rh (hiS x) _ (h - 1 - j) (by omega) (by omega), show n - (h - 1 - j) = h + (n - 1 - h + 2 - h + j) by omega])
    (by omega) (by omega) (by omega)
  obtain ⟨lo1, d4, m4⟩ := Ext.deq_step repMin_rep hh k1.2 (by omega) (d := pre (fun k => loS x (n - k)) (2 * h)) (due := (h : Int))
    (p := n) (oldest := (h : Int) - 1) (newest := 0)
    (fun j hj => by rw [rh (loS x) _ (h - 1 - j) (by omega) (by omega), show n - (h - 1 - j) = h + (n - 1 - h + 2 - h + j) by omega])
    (by omega) (by omega) (by omega)
  have K2 : HiLo.Kept (hiS x) (loS x) h 0 (n - 1 - h + 1) ⟨hi2, lo2⟩ := ⟨m1, m2⟩
  have K1 : HiLo.Kept (fun k => hiS x (h + k)) (fun k => loS x (h + k)) h (h : Int) (n - 1 - h + 1) ⟨hi1, lo1⟩ := ⟨m3, m4⟩
  have shM : ∀ f : Nat → R, recMax h (fun k => f (h + k)) (n - 1 - h + 1) = winMax h f (n + 1 - 2 * h + h) := by
    intro f
    rw [recMax_full _ _ _ (by omega), winMax, winMax]
    simp only [show ∀ k, h + (n - 1 - h + 1 + 1 - h + k) = n + 1 - 2 * h + h + k from fun k => by omega]
  have shm : ∀ f : Nat → R, recMin h (fun k => f (h + k)) (n - 1 - h + 1) = winMin h f (n + 1 - 2 * h + h) := by
    intro f
    rw [recMin_full _ _ _ (by omega), winMin, winMin]
    simp only [show ∀ k, h + (n - 1 - h + 1 + 1 - h + k) = n + 1 - 2 * h + h + k from fun k => by omega]
  rw [ph, bind_ok, pl, bind_ok, d1, bind_ok, d2, bind_ok, d3, bind_ok, d4, bind_ok,
    show hi1.val = some (recMax h (fun k => hiS x (h + k)) (n - 1 - h + 1)) from K1.hi hh,
    show lo1.val = some (recMin h (fun k => loS x (h + k)) (n - 1 - h + 1)) from K1.lo hh,
    show hi2.val = some (recMax h (hiS x) (n - 1 - h + 1)) from K2.hi hh, show lo2.val = some (recMin h (loS x) (n - 1 - h + 1)) from K2.lo hh]
  simp only [getV, bind_ok]
  rw [shM, shm, recMax_full _ _ _ (by omega), recMin_full _ _ _ (by omega), show n - 1 - h + 1 + 1 - h = n + 1 - 2 * h by omega,
    framaMove_eq hh ho, H.filt (by omega), frama_new_le x n h w (by omega) hh]
  refine ⟨_, rfl, fun _ => rfl, ?_, ?_, fun _ => ?_, fun _ => ?_⟩
  · dsimp only; rw [min_eq_right (show 2 * h ≤ n + 1 by omega)]; rfl
  · dsimp only; rw [min_eq_right (show 2 * h ≤ n + 1 by omega)]; rfl
  · rw [e2]; exact K2
  · rw [show n + 1 - 1 - h = n - 1 - h + 1 by omega]; exact K1

end Field
end Verif
