/- pfe, cmi, mhlma: the runs (helper lemmas). -/
import Verif.Model.Trail
import Verif.Proof.Loop
import Verif.Proof.Chan
import Verif.Proof.Sum
import Verif.Proof.Flow
import Verif.Proof.EmaField

set_option linter.unusedSectionVars false
set_option linter.unusedSimpArgs false
set_option linter.unusedVariables false

namespace Verif
open Spec
section Any
variable {R : Type} [Num R]

/-! ### pfe -/

def pfeMove (x : Nat → R) (k : Nat) : R := pfeStep (x (k + 1)) (x k)
def pfeRaw (p : Nat) (x : Nat → R) (j : Nat) : R :=
  pfeNumer (x (j + p)) (x j) / (slideS (pfeMove x) p (j + (p - 1)) + pfeMove x (j + (p - 1)))
def pfeEma (p : Nat) (per : R) (x : Nat → R) (n : Nat) : Option R :=
  if n ≤ p then none else some (emaRec per (pfeRaw p x) (n - p - 1))

def pfeAt (p : Nat) (per : R) (x : Nat → R) (n : Nat) : PfeS R :=
  ⟨slideS (pfeMove x) p (n - 1), pfeEma p per x n, Ring.after (pfeMove x) p (n - 1)⟩

theorem pfeLoops_ordered (period : Int) (per : R) (xs : List R) : Phases.Ordered (pfeLoops period per xs) := by
  phases_ordered pfeLoops
theorem pfePhases_ordered (k : Int × R) : Phases.Ordered (pfePhases k) := by phases_ordered pfePhases

theorem pfe_run (o : Nat → R) (p e : Nat) (hcp : toInt (o 0) = .ok (p : Int)) (hce : toInt (o 1) = .ok (e : Int)) (hp : 1 ≤ p)
    (he : 1 ≤ e) : Computes pfeBatch o p fun x => emaRec (c! 2 / (((e : Int) : R) + c! 1)) (pfeRaw p x) := by
  intro x N
  unfold pfeBatch
  simp only [hcp, hce, bind_ok, pfeStart]
  rw [if_neg (by omega), if_neg (by omega)]
  by_cases hN : N ≤ p
  · rw [if_pos (by simpa using hN), Nat.sub_eq_zero_of_le hN]; rfl
  rw [if_neg (by simpa using hN), Ring.make_after (pfeMove x) p hp, bind_ok]
  generalize c! 2 / (((e : Int) : R) + c! 1) = per
  refine loopBatch_run x N p _ (by simp) ((pfeLoops_ordered _ _ _).from _) (pfeAt p per x) ?_ _ ?_
  · simp [pfeAt, pfeEma, slideS]
  intro n hn
  simp only [barStep, pfeLoops, List.find?]
  cases n with
  | zero =>
    rw [decide_eq_true (by omega)]
    simp only [pure_eq, if_pos (show 0 < p by omega)]
    simp [pfeAt, pfeEma]
    omega
  | succ n =>
    rw [decide_eq_false (by omega)]
    have hrd : rd (pre x N) (0 + ((n + 1 : Nat) : Int) - 1) = .ok (x n) := rd_at n (by omega) (by omega)
    have hset := Ring.after_set (pfeMove x) p hp n _ rfl
    rw [show pfeMove x n = pfeStep (x (n + 1)) (x n) from rfl] at hset
    by_cases h1 : n + 1 < p
    · rw [decide_eq_true (by omega)]
      simp only [hrd, bind_ok, pfeAt, Nat.add_sub_cancel, hset, pure_eq, Ring.now_step, if_pos h1, pfeEma,
        if_pos (show n + 1 ≤ p by omega), if_pos (show n + 1 + 1 ≤ p by omega), slideS, if_pos (show n < p - 1 by omega)]
      rfl
    rw [decide_eq_false (by omega)]
    have hrp : rd (pre x N) (0 + ((n + 1 : Nat) : Int) - p) = .ok (x (n + 1 - p)) := rd_at _ (by omega) (by omega)
    have hget := Ring.now_get (pfeMove x) p n ((p : Int) - 1) (p - 1) (by omega) (by omega) (by omega)
    have eraw : pfeNumer (x (n + 1)) (x (n + 1 - p)) / (slideS (pfeMove x) p n + pfeMove x n) = pfeRaw p x (n + 1 - p) := by
      rw [pfeRaw, show n + 1 - p + p = n + 1 by omega, show n + 1 - p + (p - 1) = n by omega]
    rw [show pfeMove x n = pfeStep (x (n + 1)) (x n) from rfl] at eraw
    have esl : slideS (pfeMove x) p (n + 1) = slideS (pfeMove x) p n + pfeStep (x (n + 1)) (x n) - pfeMove x (n - (p - 1)) := by
      rw [slideS, if_neg (by omega)]; rfl
    by_cases h2 : n + 1 < p + 1
    · rw [decide_eq_true (by omega)]
      simp only [hrd, hrp, bind_ok, pfeAt, Nat.add_sub_cancel, hset, hget, pure_eq, Ring.now_step, if_neg h1, pfeEma,
        if_pos (show n + 1 ≤ p by omega), if_neg (show ¬ n + 1 + 1 ≤ p by omega), esl, eraw]
      obtain rfl : p = n + 1 := by omega
      simp [emaRec]
    · rw [decide_eq_false (by omega)]
      simp only [hrd, hrp, bind_ok, pfeAt, Nat.add_sub_cancel, hset, hget, pure_eq, Ring.now_step, if_neg h1, pfeEma,
        if_neg (show ¬ n + 1 ≤ p by omega), if_neg (show ¬ n + 1 + 1 ≤ p by omega), esl, eraw, getV]
      obtain ⟨d, hd⟩ : ∃ d, n + 1 - p = d + 1 := ⟨n - p, by omega⟩
      rw [hd, show n + 1 + 1 - p - 1 = d + 1 by omega, show d + 1 - 1 = d by omega]
      rfl

def pfeMove0 (x : Nat → R) : Nat → R
  | 0 => c! 0
  | k + 1 => pfeMove x k

def pfeAtS (p : Nat) (per : R) (x : Nat → R) (n : Nat) : PfeT R :=
  ⟨slideS (pfeMove x) p (n - 1), pfeEma p per x n, Ring.after x (p + 1) n, Ring.after (pfeMove0 x) p n⟩

theorem pfe_stream_run (o : Nat → R) (p : Nat) (e : Int) (hcp : toInt (o 0) = .ok (p : Int)) (hce : toInt (o 1) = .ok e) (hp : 1 ≤ p)
    (h0 : ¬ o 0 < c! 1) (h1 : ¬ o 1 < c! 1) (hr : toInt (o 0 + c! 1) = .ok ((p + 1 : Nat) : Int)) :
    (pfe (R := R)).StreamComputes o p fun x => emaRec (c! 2 / (o 1 + c! 1)) (pfeRaw p x) := by
  refine streamComputes_traj (I := pfe) (k := ((p : Int), c! 2 / (o 1 + c! 1)))
    (s0 := (⟨c! 0, none, ⟨List.replicate (p + 1) (c! 0), 0⟩, ⟨List.replicate p (c! 0), 0⟩⟩ : PfeT R))
    ?_ (pfePhases_ordered _) (pfeAtS p (c! 2 / (o 1 + c! 1))) ?_ ?_
  · simp only [pfe, pfeNew, if_neg h0, if_neg h1, pfeStart, hcp, hce, hr, bind_ok]
    rw [Ring.make_after (fun _ => c! 0) (p + 1) (by omega), bind_ok, Ring.make_after (fun _ => c! 0) p hp]
    rfl
  · intro x
    simp [pfeAtS, pfeEma, slideS, Ring.after]
    rfl
  generalize c! 2 / (o 1 + c! 1) = per
  intro x n
  simp only [pfe, barStep, pfePhases, List.find?]
  have sp := Ring.after_set x (p + 1) (by omega) n _ rfl
  cases n with
  | zero =>
    rw [decide_eq_true (by omega)]
    simp only [pfeAtS, sp, bind_ok, pure_eq, if_pos (show 0 < p by omega), Ring.now_step]
    rw [Ring.after_skip (pfeMove0 x) p 0 (fun k hk => by rw [Nat.le_zero.1 hk]; rfl)]
    simp [pfeEma]
    omega
  | succ n =>
    rw [decide_eq_false (by omega)]
    have hset := Ring.after_set (pfeMove0 x) p hp (n + 1) _ rfl
    rw [show pfeMove0 x (n + 1) = pfeStep (x (n + 1)) (x n) from rfl] at hset
    have g1 := Ring.now_get x (p + 1) (n + 1) 1 1 rfl (by omega) (by omega)
    rw [show n + 1 - 1 = n by omega] at g1
    by_cases h1 : n + 1 < p
    · rw [decide_eq_true (by omega)]
      simp only [sp, g1, bind_ok, pfeAtS, Nat.add_sub_cancel, hset, pure_eq, Ring.now_step, if_pos h1, pfeEma,
        if_pos (show n + 1 ≤ p by omega), if_pos (show n + 1 + 1 ≤ p by omega), slideS, if_pos (show n < p - 1 by omega)]
      rfl
    rw [decide_eq_false (by omega)]
    have gp := Ring.now_get x (p + 1) (n + 1) (p : Int) p rfl (by omega) (by omega)
    have hget := Ring.now_get (pfeMove0 x) p (n + 1) ((p : Int) - 1) (p - 1) (by omega) (by omega) (by omega)
    rw [show n + 1 - (p - 1) = (n - (p - 1)) + 1 by omega, show pfeMove0 x ((n - (p - 1)) + 1) = pfeMove x (n - (p - 1)) from rfl] at hget
    have eraw : pfeNumer (x (n + 1)) (x (n + 1 - p)) / (slideS (pfeMove x) p n + pfeMove x n) = pfeRaw p x (n + 1 - p) := by
      rw [pfeRaw, show n + 1 - p + p = n + 1 by omega, show n + 1 - p + (p - 1) = n by omega]
    rw [show pfeMove x n = pfeStep (x (n + 1)) (x n) from rfl] at eraw
    have esl : slideS (pfeMove x) p (n + 1) = slideS (pfeMove x) p n + pfeStep (x (n + 1)) (x n) - pfeMove x (n - (p - 1)) := by
      rw [slideS, if_neg (by omega)]; rfl
    by_cases h2 : n + 1 < p + 1
    · rw [decide_eq_true (by omega)]
      simp only [sp, g1, gp, bind_ok, pfeAtS, Nat.add_sub_cancel, hset, hget, pure_eq, Ring.now_step, if_neg h1, pfeEma,
        if_pos (show n + 1 ≤ p by omega), if_neg (show ¬ n + 1 + 1 ≤ p by omega), esl, eraw]
      obtain rfl : p = n + 1 := by omega
      simp [emaRec]
    · rw [decide_eq_false (by omega)]
      simp only [sp, g1, gp, bind_ok, pfeAtS, Nat.add_sub_cancel, hset, hget, pure_eq, Ring.now_step, if_neg h1, pfeEma,
        if_neg (show ¬ n + 1 ≤ p by omega), if_neg (show ¬ n + 1 + 1 ≤ p by omega), esl, eraw, getV]
      obtain ⟨d, hd⟩ : ∃ d, n + 1 - p = d + 1 := ⟨n - p, by omega⟩
      rw [hd, show n + 1 + 1 - p - 1 = d + 1 by omega, show d + 1 - 1 = d by omega]
      rfl

/-! ### Searching a whole ring -/

variable {cmp rep : R → R → Bool} {le : R → R → Prop}

theorem Ring.physMax_ok (C : Ring.Cmp cmp le) {r : Ring R} {m : Nat} {g : Nat → R} (hm : 1 ≤ m)
    (hl : r.buf.length = m) (hpos : r.pos < m) (hv : ∀ k, k < m → r.cell k = some (g k)) :
    ∃ it a, r.physMax cmp = .ok it ∧ r.age it = .ok a ∧ a < m ∧ rd r.buf it = .ok (g a) ∧ ∀ k, k < m → le (g k) (g a) := by
  have hcell : ∀ j, j < m → ∃ k, k < m ∧ r.buf[j]? = some (g k) ∧ r.age j = .ok k := by
    intro j hj
    rcases Nat.lt_or_ge j r.pos with h1 | h1
    · refine ⟨j + m - r.pos, by omega, ?_, ?_⟩
      · have := hv (j + m - r.pos) (by omega)
        rwa [Ring.cell, hl, show r.pos + (j + m - r.pos) = j + m by omega, Nat.add_mod_right, Nat.mod_eq_of_lt (by omega)] at this
      · rw [Ring.age, hl, if_pos hj, show j + (m - r.pos) = j + m - r.pos by omega, Nat.mod_eq_of_lt (by omega)]
    · refine ⟨j - r.pos, by omega, ?_, ?_⟩
      · have := hv (j - r.pos) (by omega)
        rwa [Ring.cell, hl, show r.pos + (j - r.pos) = j by omega, Nat.mod_eq_of_lt hj] at this
      · rw [Ring.age, hl, if_pos hj, show j + (m - r.pos) = (j - r.pos) + m by omega, Nat.add_mod_right, Nat.mod_eq_of_lt (by omega)]
  have : Inhabited R := ⟨c! 0⟩
  obtain ⟨f, hf⟩ := exists_pre r.buf
  rw [hl] at hf
  have hfk : ∀ j, j < m → r.buf[j]? = some (f j) := by
    intro j hj; rw [hf]; exact pre_getElem? f m j hj
  obtain ⟨it, h1, _, h3, h4⟩ := maxUp_finds C f m 0 m (by omega) le_rfl
  obtain ⟨a, ha, hb, hc⟩ := hcell it h3
  refine ⟨it, a, ?_, hc, ha, rd_get? hb, fun k hk => ?_⟩
  · unfold Ring.physMax; rw [hl, hf]; exact h1
  · have e1 : g a = f it := by have := hfk it h3; rw [hb] at this; exact Option.some.inj this
    have hj : (r.pos + k) % m < m := Nat.mod_lt _ (by omega)
    have e2 : g k = f ((r.pos + k) % m) := by
      have h5 := hv k hk
      rw [Ring.cell, hl] at h5
      have := hfk _ hj
      rw [h5] at this
      exact Option.some.inj this
    rw [e1, e2]
    exact h4 _ (by omega) hj

/-- One bar of the tracker: `due` must recognise the position that has just left the window. -/
theorem Ext.phys_step (C : Rep rep le) (K : Ring.Cmp cmp le) {x : Nat → R} {p n : Nat} {base : Int} (hp : 1 ≤ p) {due : Int → Bool}
    {e : Ext R} (h : Ext.Kept le x p base n e) (i : Int) (hi : i = base + (n + 1 : Nat))
    (hd : ∀ a : Nat, a ≤ n → due (base + a) = decide (base + (a : Int) = i - p)) :
    ∃ e', e.phys cmp rep (Ring.now x p (n + 1)) due i (x (n + 1)) = .ok e' ∧ Ext.Kept le x p base (n + 1) e' := by
  subst hi
  unfold Ext.phys
  have h' := h
  obtain ⟨a, hv, hi, h1, h2, h3⟩ := h
  rw [hi]
  simp only [getV, bind_ok, hd a h1]
  by_cases hc : base + (a : Int) = base + ((n + 1 : Nat) : Int) - p
  · rw [decide_eq_true hc, if_pos rfl]
    have hnow := Ring.now_now x p (by omega) (n + 1)
    obtain ⟨it, b, hf, ha, hb, hr, hbest⟩ := Ring.physMax_ok K (g := fun k => if k ≤ n + 1 then x (n + 1 - k) else c! 0)
      hp hnow.len hnow.pos (fun k hk => hnow.val k hk)
    simp only [hf, bind_ok, hr, ha]
    refine ⟨_, rfl, n + 1 - b, ?_, ?_, by omega, by omega, fun k hk1 hk2 => ?_⟩
    · dsimp only; rw [if_pos (by omega)]
    · dsimp only; congr 1; omega
    · have := hbest (n + 1 - k) (by omega)
      rw [if_pos (by omega), if_pos (by omega), show n + 1 - (n + 1 - k) = k by omega] at this
      exact this
  · rw [decide_eq_false hc, if_neg (by simp)]
    refine ⟨_, rfl, Ext.take_step C hp h' ?_ _ (by omega)⟩
    rw [hi]
    intro he
    apply hc
    have := Option.some.inj he
    omega

end Any

section Field
variable {R : Type} [Field R] [LinearOrder R] [IsStrictOrderedRing R] [CMath R]

theorem HiLo.phys_step {x : Nat → R} {p n : Nat} {base : Int} (hp : 1 ≤ p) {due : Int → Bool} {s : HiLo R}
    (H : HiLo.Kept x x p base n s) (i : Int) (hi : i = base + (n + 1 : Nat))
    (hd : ∀ a : Nat, a ≤ n → due (base + a) = decide (base + (a : Int) = i - p)) :
    ∃ s', s.phys (Ring.now x p (n + 1)) due i (x (n + 1)) = .ok s' ∧ HiLo.Kept x x p base (n + 1) s' := by
  obtain ⟨e1, h1, k1⟩ := Ext.phys_step repMax_rep less_cmp hp H.1 i hi hd
  obtain ⟨e2, h2, k2⟩ := Ext.phys_step repMin_rep greater_cmp hp H.2 i hi hd
  exact ⟨⟨e1, e2⟩, by unfold HiLo.phys; rw [h1, bind_ok, h2]; rfl, k1, k2⟩

theorem HiLo.set_init (x : Nat → R) (p : Nat) (hp : 1 ≤ p) (base : Int) (v : R) (i : Int) (hv : v = x 0) (hi : i = base) :
    HiLo.Kept x x p base 0 ⟨⟨some v, some i⟩, ⟨some v, some i⟩⟩ :=
  ⟨Ext.set_init repMax_rep x p hp base v i hv hi, Ext.set_init repMin_rep x p hp base v i hv hi⟩

/-! ### mhlma -/

def mhlM (p : Nat) (x : Nat → R) (n : Nat) : R := (recMax p x n + recMin p x n) / c! 2

/-- `sum` before bar `n`. -/
def mhlSum (ma : Nat) (m : Nat → R) : Nat → R
  | 0 => c! 0
  | 1 => c! 0 + m 0
  | n + 2 => if n + 1 < ma - 1 then mhlSum ma m (n + 1) + m (n + 1) else mhlSum ma m (n + 1) + m (n + 1) - m (n + 1 - (ma - 1))

/-- `ema` after bar `n`. -/
def mhlE (ma : Nat) (m : Nat → R) : Nat → R
  | 0 => m 0
  | n + 1 => (m (n + 1) - mhlE ma m n) * c! 2 / (((ma : Int) + 1 : Int) : R) + mhlE ma m n

def mhlVal (p ma : Nat) (x : Nat → R) (n : Nat) : Mhl R :=
  ⟨(mhlSum ma (mhlM p x) n + mhlM p x n) / ((ma : Int) : R), mhlE ma (mhlM p x) n⟩

theorem mhlmaLoops_ordered (p ma : Int) (xs : List R) : Phases.Ordered (mhlmaLoops p ma xs) := by phases_ordered mhlmaLoops
theorem mhlmaPhases_ordered (k : Int × Int) : Phases.Ordered (mhlmaPhases (R := R) k) := by phases_ordered mhlmaPhases

def MhlInv (p ma : Nat) (base : Int) (x : Nat → R) : Nat → MhlS R → Prop
  | 0, s => s = ⟨c! 0, c! 0, .zero, Ring.after (mhlM p x) ma 0⟩
  | n + 1, s => HiLo.Kept x x p base n s.ext ∧ s.sum = mhlSum ma (mhlM p x) (n + 1) ∧ s.ema = mhlE ma (mhlM p x) n ∧
      s.mhl = Ring.after (mhlM p x) ma (n + 1)

theorem mhlNext_ok {p ma : Nat} (hp : 1 ≤ p) (hma : 1 ≤ ma) (hb : ma < 2147483647) {base : Int} {x : Nat → R} {n : Nat} {s : MhlS R}
    (H : MhlInv p ma base x (n + 1) s) {ext : HiLo R} (hk : HiLo.Kept x x p base (n + 1) ext) :
    mhlNext (ma : Int) ext s = .ok ⟨mhlSum ma (mhlM p x) (n + 1) + mhlM p x (n + 1), mhlE ma (mhlM p x) (n + 1), ext,
      Ring.now (mhlM p x) ma (n + 1)⟩ := by
  obtain ⟨_, h1, h2, h3⟩ := H
  unfold mhlNext HiLo.mid
  rw [hk.hi hp, hk.lo hp]
  simp only [getV, bind_ok, pure_eq]
  rw [h1, h2, h3, Ring.after_set (mhlM p x) ma (by omega) (n + 1) ((recMax p x (n + 1) + recMin p x (n + 1)) / c! 2) rfl, bind_ok, i32_ok _ (by omega) (by omega)]
  rfl

theorem mhlOut_ok {p ma : Nat} (hma : 1 ≤ ma) {x : Nat → R} {n : Nat} (hn : ma - 1 ≤ n + 1) {ext : HiLo R} :
    mhlOut (ma : Int) ⟨mhlSum ma (mhlM p x) (n + 1) + mhlM p x (n + 1), mhlE ma (mhlM p x) (n + 1), ext,
      Ring.now (mhlM p x) ma (n + 1)⟩ = .ok (⟨mhlSum ma (mhlM p x) (n + 2), mhlE ma (mhlM p x) (n + 1), ext,
        Ring.after (mhlM p x) ma (n + 2)⟩, [mhlVal p ma x (n + 1)]) := by
  unfold mhlOut
  dsimp only
  rw [Ring.now_get (mhlM p x) ma (n + 1) ((ma : Int) - 1) (ma - 1) (by omega) (by omega) (by omega), bind_ok]
  simp only [mhlSum, if_neg (show ¬ n + 1 < ma - 1 by omega)]
  rfl

theorem mhlSum_warm (ma : Nat) (m : Nat → R) (n : Nat) (h : n + 1 < ma - 1) :
    mhlSum ma m (n + 2) = mhlSum ma m (n + 1) + m (n + 1) := by rw [mhlSum, if_pos h]

theorem recMax_zero (p : Nat) (hp : 1 ≤ p) (x : Nat → R) : recMax p x 0 = x 0 := by
  unfold recMax
  obtain ⟨k, h1, h2, e⟩ := winMax_mem (min p (0 + 1)) (by omega) x (0 + 1 - min p (0 + 1))
  rw [e]; congr 1; omega
theorem recMin_zero (p : Nat) (hp : 1 ≤ p) (x : Nat → R) : recMin p x 0 = x 0 := by
  unfold recMin
  obtain ⟨k, h1, h2, e⟩ := winMin_mem (min p (0 + 1)) (by omega) x (0 + 1 - min p (0 + 1))
  rw [e]; congr 1; omega
theorem mhlM_zero (p : Nat) (hp : 1 ≤ p) (x : Nat → R) : (x 0 + x 0) / c! 2 = mhlM p x 0 := by
  unfold mhlM; rw [recMax_zero p hp, recMin_zero p hp]

/-- Also for `ma = 1`, when the first bar gives no output. -/
theorem mhlma_run (o : Nat → R) (p ma : Nat) (hcp : toInt (o 0) = .ok (p : Int)) (hcm : toInt (o 1) = .ok (ma : Int))
    (hs : mhlmaStart o = .ok ((ma - 1 : Nat) : Int)) (hp : 1 ≤ p) (hma : 1 ≤ ma) (hb : ma < 2147483647) :
    Computes mhlmaBatch o (max 1 (ma - 1)) fun x j => mhlVal p ma x (max 1 (ma - 1) + j) := by
  intro x N
  unfold mhlmaBatch
  rw [hcp, bind_ok, hcm, bind_ok, if_neg (by omega), Ring.make_after (mhlM p x) ma hma, bind_ok, hs, bind_ok]
  refine loopBatch_inv x N (max 1 (ma - 1)) _ (by simp; omega) ((mhlmaLoops_ordered _ _ _).from _) (MhlInv p ma 0 x) rfl _ ?_
  intro n s hn H
  simp only [barStep, mhlmaLoops, List.find?]
  cases n with
  | zero =>
    obtain rfl := H
    rw [decide_eq_true (by omega)]
    dsimp only
    rw [if_pos (by omega), Ring.after_set (mhlM p x) ma hma 0 _ (mhlM_zero p hp x), bind_ok]
    refine ⟨_, rfl, HiLo.set_init x p hp 0 _ _ rfl rfl, ?_, mhlM_zero p hp x, rfl⟩
    dsimp only; rw [mhlM_zero p hp x]; rfl
  | succ n =>
    rw [decide_eq_false (by omega)]
    dsimp only
    by_cases h1 : n + 1 < p ∧ n + 1 < ma - 1
    · rw [decide_eq_true (show (0 : Int) + ((n + 1 : Nat) : Int) < p by omega),
        decide_eq_true (show (0 : Int) + ((n + 1 : Nat) : Int) < ma - 1 by omega)]
      rw [show (true && true) = true from rfl]
      dsimp only
      have hk' := HiLo.take_step hp H.1 h1.1 (0 + ((n + 1 : Nat) : Int)) rfl
      rw [if_pos (by omega), mhlNext_ok hp hma hb H hk', bind_ok]
      exact ⟨_, rfl, hk', (mhlSum_warm _ _ _ h1.2).symm, rfl, rfl⟩
    have e1 : (decide ((0 : Int) + ((n + 1 : Nat) : Int) < p) && decide ((0 : Int) + ((n + 1 : Nat) : Int) < ma - 1)) = false := by
      rw [Bool.and_eq_false_iff]
      by_cases h2 : n + 1 < p
      · right; exact decide_eq_false (by omega)
      · left; exact decide_eq_false (by omega)
    rw [e1]
    dsimp only
    obtain ⟨s', h3, hk'⟩ := HiLo.batchUp_step hp hn H.1 (0 + ((n + 1 : Nat) : Int)) (by omega)
    by_cases h2 : n + 1 < ma - 1
    · rw [decide_eq_true (by omega)]
      dsimp only
      rw [if_pos (by omega), h3, bind_ok, mhlNext_ok hp hma hb H hk', bind_ok]
      exact ⟨_, rfl, hk', (mhlSum_warm _ _ _ h2).symm, rfl, rfl⟩
    · rw [decide_eq_false (by omega)]
      dsimp only
      rw [if_neg (by omega), h3, bind_ok, mhlNext_ok hp hma hb H hk', bind_ok, mhlOut_ok hma (by omega),
        show max 1 (ma - 1) + (n + 1 - max 1 (ma - 1)) = n + 1 by omega]
      exact ⟨_, rfl, hk', rfl, rfl, rfl⟩

theorem mhlma_stream_run (o : Nat → R) (p ma : Nat) (hcp : toInt (o 0) = .ok (p : Int)) (hcm : toInt (o 1) = .ok (ma : Int))
    (hs : mhlmaStart o = .ok ((ma - 1 : Nat) : Int)) (hp : 1 ≤ p) (hma : 2 ≤ ma) (hb : ma < 2147483647) :
    (mhlma (R := R)).StreamComputes o (ma - 1) fun x j => mhlVal p ma x (ma - 1 + j) := by
  refine streamComputes_of (I := mhlma) (k := ((p : Int), (ma : Int)))
    (s0 := (⟨⟨c! 0, c! 0, .zero, ⟨List.replicate ma (c! 0), 0⟩⟩, ⟨List.replicate p (c! 0), 0⟩⟩ : MhlT R))
    ?_ (mhlmaPhases_ordered _) (fun x n t => MhlInv p ma (-((ma - 1 : Nat) : Int)) x n t.s ∧ t.price = Ring.after x p n)
    (fun x => ⟨rfl, rfl⟩) ?_
  · simp only [mhlma, mhlmaNew, hcp, hcm, bind_ok, hs]
    rw [if_neg (by omega), Ring.make_after (fun _ => c! 0) ma (by omega), bind_ok, Ring.make_after (fun _ => c! 0) p hp]
    rfl
  rintro x n ⟨s, price⟩ ⟨H, hpr⟩
  dsimp only at H hpr
  subst hpr
  have e2 := Ring.after_set x p (by omega) n _ rfl
  simp only [mhlma, barStep, mhlmaPhases, List.find?]
  cases n with
  | zero =>
    obtain rfl := H
    rw [decide_eq_true (by omega)]
    dsimp only
    rw [if_pos (by omega), e2, bind_ok, Ring.after_set (mhlM p x) ma (by omega) 0 _ (mhlM_zero p hp x), bind_ok]
    refine ⟨_, rfl, ⟨HiLo.set_init x p hp _ _ _ rfl (by simp), ?_, mhlM_zero p hp x, rfl⟩, rfl⟩
    dsimp only; rw [mhlM_zero p hp x]; rfl
  | succ n =>
    rw [decide_eq_false (by omega)]
    dsimp only
    by_cases h1 : n + 1 < p ∧ n + 1 < ma - 1
    · rw [decide_eq_true (show -((ma - 1 : Nat) : Int) + ((n + 1 : Nat) : Int) < -(ma : Int) + 1 + p by omega),
        decide_eq_true (show -((ma - 1 : Nat) : Int) + ((n + 1 : Nat) : Int) < 0 by omega)]
      rw [show (true && true) = true from rfl]
      dsimp only
      have hk' := HiLo.take_step hp H.1 h1.1 (-((ma - 1 : Nat) : Int) + ((n + 1 : Nat) : Int)) rfl
      rw [if_pos (by omega), e2, bind_ok, mhlNext_ok hp (by omega) hb H hk', bind_ok]
      exact ⟨_, rfl, ⟨hk', (mhlSum_warm _ _ _ h1.2).symm, rfl, rfl⟩, rfl⟩
    have e1 : (decide (-((ma - 1 : Nat) : Int) + ((n + 1 : Nat) : Int) < -(ma : Int) + 1 + p) &&
        decide (-((ma - 1 : Nat) : Int) + ((n + 1 : Nat) : Int) < 0)) = false := by
      rw [Bool.and_eq_false_iff]
      by_cases h2 : n + 1 < p
      · right; exact decide_eq_false (by omega)
      · left; exact decide_eq_false (by omega)
    rw [e1]
    dsimp only
    obtain ⟨s', h3, hk'⟩ := HiLo.phys_step hp H.1 (-((ma - 1 : Nat) : Int) + ((n + 1 : Nat) : Int)) rfl
      (due := fun ix => decide (ix = -((ma - 1 : Nat) : Int) + ((n + 1 : Nat) : Int) - p)) (fun a _ => rfl)
    by_cases h2 : n + 1 < ma - 1
    · rw [decide_eq_true (by omega)]
      dsimp only
      rw [if_pos (by omega), e2, bind_ok, h3, bind_ok, mhlNext_ok hp (by omega) hb H hk', bind_ok]
      exact ⟨_, rfl, ⟨hk', (mhlSum_warm _ _ _ h2).symm, rfl, rfl⟩, rfl⟩
    · rw [decide_eq_false (by omega)]
      dsimp only
      rw [if_neg (by omega), e2, bind_ok, h3, bind_ok, mhlNext_ok hp (by omega) hb H hk', bind_ok, mhlOut_ok (by omega) (by omega), bind_ok,
        show ma - 1 + (n + 1 - (ma - 1)) = n + 1 by omega]
      exact ⟨_, rfl, ⟨hk', rfl, rfl, rfl⟩, rfl⟩

/-! ### cmi -/

def cmiVal (lp : R) (H L t : Nat → R) (p n : Nat) : R := CMath.log ((H n - L n) / (mhlSum p t n + t n)) / lp * c! 100

theorem cmiLoops_ordered (p : Int) (xs : List (HLC R)) : Phases.Ordered (cmiLoops p xs) := by phases_ordered cmiLoops

theorem cmiPhases_ordered (v : R) : Phases.Ordered (cmiPhases v) := by
  refine ⟨?_, fun p => ⟨_, List.getLast_mem (List.cons_ne_nil _ _), rfl⟩⟩
  unfold cmiPhases
  simp only [List.forall_mem_cons]
  refine ⟨fun p h => ?_, fun p h => ?_, by simp⟩
  · have h := of_decide_eq_false h
    refine decide_eq_false fun h' => h ?_
    have : ((p : Int) : R) < ((p + 1 : Int) : R) := by exact_mod_cast Int.lt_succ p
    exact lt_trans this h'
  · have h := of_decide_eq_false h
    exact decide_eq_false (by omega)

def CmiInv (p : Nat) (x : Nat → HLC R) : Nat → CmiS R → Prop
  | 0, s => s = ⟨c! 0, .unset, Ring.after (ceTr x) p 0⟩
  | n + 1, s => HiLo.Kept (ceTr x) (ceTr x) p 0 n s.ext ∧ s.sum = mhlSum p (ceTr x) (n + 1) ∧ s.tr = Ring.after (ceTr x) p (n + 1)

theorem cmiOut_ok {s : HiLo R} {H L : R} (h1 : s.hi.val = some H) (h2 : s.lo.val = some L) (lp sum : R) :
    cmiOut lp s sum = .ok (CMath.log ((H - L) / sum) / lp * c! 100) := by
  unfold cmiOut; rw [h1, h2]; rfl

/-- Also for `p = 1`, when the first bar gives no output. -/
theorem cmi_run (o : Nat → R) (p : Nat) (hc : toInt (o 0) = .ok (p : Int)) (hs : cmiStart o = .ok ((p - 1 : Nat) : Int)) (hp : 1 ≤ p) :
    Computes cmiBatch o (max 1 (p - 1)) fun x j => cmiVal (CMath.log ((p : Int) : R)) (recMax p (ceTr x)) (recMin p (ceTr x)) (ceTr x) p
      (max 1 (p - 1) + j) := by
  intro x N
  unfold cmiBatch
  rw [hc, bind_ok, if_neg (by omega), Ring.make_after (ceTr x) p hp, bind_ok, hs, bind_ok]
  refine loopBatch_inv x N (max 1 (p - 1)) _ (by simp; omega) ((cmiLoops_ordered _ _).from _) (CmiInv p x) rfl _ ?_
  intro n s hn H
  simp only [barStep, cmiLoops, List.find?]
  have e1 := Ring.after_set (ceTr x) p (by omega) n _ rfl
  cases n with
  | zero =>
    obtain rfl := H
    rw [decide_eq_true (by omega)]
    dsimp only
    rw [if_pos (by omega), show (x 0).high - (x 0).low = ceTr x 0 from rfl, e1, bind_ok]
    exact ⟨_, rfl, HiLo.set_init (ceTr x) p hp 0 _ _ rfl rfl, rfl, rfl⟩
  | succ n =>
    obtain ⟨sum, ext, tr⟩ := s
    obtain ⟨hk, h1, h2⟩ := H
    dsimp only at hk h1 h2
    subst h1 h2
    rw [decide_eq_false (by omega)]
    have hrd : rd (pre x N) (0 + ((n + 1 : Nat) : Int) - 1) = .ok (x n) := rd_at n (by omega) (by omega)
    have et : ceRange (x (n + 1)) (x n).close = ceTr x (n + 1) := rfl
    by_cases h1 : n + 1 < p - 1
    · rw [decide_eq_true (by omega)]
      dsimp only
      rw [if_pos (by omega), hrd, bind_ok, et, e1, bind_ok]
      exact ⟨_, rfl, HiLo.take_step hp hk (by omega) _ rfl, (mhlSum_warm _ _ _ h1).symm, rfl⟩
    rw [decide_eq_false (by omega)]
    dsimp only
    obtain ⟨s', h3, hk'⟩ := HiLo.phys_step hp hk (0 + ((n + 1 : Nat) : Int)) rfl
      (due := fun ix => decide (ix = 0 + ((n + 1 : Nat) : Int) - p)) (fun a _ => rfl)
    rw [if_neg (by omega), hrd, bind_ok, et, e1, bind_ok, h3, bind_ok, cmiOut_ok (hk'.hi hp) (hk'.lo hp), bind_ok,
      Ring.now_get (ceTr x) p (n + 1) ((p : Int) - 1) (p - 1) (by omega) (by omega) (by omega), bind_ok,
      show max 1 (p - 1) + (n + 1 - max 1 (p - 1)) = n + 1 by omega]
    refine ⟨_, rfl, hk', ?_, rfl⟩
    dsimp only
    rw [mhlSum, if_neg h1]

/-- Streams, for a period `v` with `p ≤ v < p + 1`; `K` says what the extremes are. -/
theorem cmi_stream_gen (o : Nat → R) (p : Nat) (hc : toInt (o 0) = .ok (p : Int)) (hs : cmiStart o = .ok ((p - 1 : Nat) : Int))
    (hp : 2 ≤ p) (hv1 : (p : R) ≤ o 0) (hv2 : o 0 < (p : R) + 1) (K : (Nat → R) → Nat → HiLo R → Prop) (H L : (Nat → R) → Nat → R)
    (hK0 : ∀ t, K t 0 ⟨⟨some (t 0), some (-((p - 1 : Nat) : Int))⟩, ⟨some (t 0), some (-((p - 1 : Nat) : Int))⟩⟩)
    (hKt : ∀ t n s, n + 1 < p → K t n s → K t (n + 1) (s.take (t (n + 1)) (t (n + 1)) (-((p - 1 : Nat) : Int) + (n + 1 : Nat))))
    (hKp : ∀ t n s, K t n s → ∃ s', s.phys (Ring.now t p (n + 1))
      (fun ix => ((ix : R) == (((-((p - 1 : Nat) : Int) + (n + 1 : Nat) : Int)) : R) - o 0)) (-((p - 1 : Nat) : Int) + (n + 1 : Nat))
      (t (n + 1)) = .ok s' ∧ K t (n + 1) s')
    (hV : ∀ t n s, K t n s → s.hi.val = some (H t n) ∧ s.lo.val = some (L t n)) :
    (cmi (R := R)).StreamComputes o (p - 1) fun x j => cmiVal (CMath.log (o 0)) (H (ceTr x)) (L (ceTr x)) (ceTr x) p (p - 1 + j) := by
  have hp1 : (1 : R) ≤ p := by exact_mod_cast (show 1 ≤ p by omega)
  have hb : ((p - 1 : Nat) : R) = (p : R) - 1 := by rw [Nat.cast_sub (by omega)]; simp
  refine streamComputes_of (I := cmi) (k := o 0)
    (s0 := (⟨c! 0, .zero, ⟨List.replicate p (c! 0), 0⟩, ⟨List.replicate 2 (c! 0), 0⟩⟩ : CmiT R)) ?_ (cmiPhases_ordered _)
    (fun x n s => s.close = Ring.after (fun k => (x k).close) 2 n ∧ s.tr = Ring.after (ceTr x) p n ∧ s.sum = mhlSum p (ceTr x) n ∧
      (n ≠ 0 → K (ceTr x) (n - 1) s.ext)) (fun x => ⟨rfl, rfl, rfl, fun h => absurd rfl h⟩) ?_
  · have : ¬ o 0 < c! 1 := by push_cast; linarith
    simp only [cmi, cmiNew, if_neg this, hs, hc, bind_ok]
    rw [Ring.make_after (fun _ => c! 0) p (by omega), bind_ok, show (2 : Int) = ((2 : Nat) : Int) from rfl,
      Ring.make_after (fun _ => c! 0) 2 (by omega)]
    rfl
  rintro x n ⟨sum, ext, tr, close⟩ ⟨h1, h2, h3, h4⟩
  dsimp only at h1 h2 h3 h4
  subst h1 h2 h3
  have e1 := Ring.after_set (ceTr x) p (by omega) n _ rfl
  have e2 := Ring.after_set (fun k => (x k).close) 2 (by omega) n _ rfl
  simp only [cmi, barStep, cmiPhases, List.find?]
  cases n with
  | zero =>
    rw [decide_eq_true (by push_cast; rw [hb]; linarith)]
    dsimp only
    rw [if_pos (by omega), e2, bind_ok, show (x 0).high - (x 0).low = ceTr x 0 from rfl, e1, bind_ok]
    refine ⟨_, rfl, rfl, rfl, rfl, fun _ => ?_⟩
    have := hK0 (ceTr x)
    simpa using this
  | succ n =>
    have hk := h4 (by omega)
    rw [Nat.add_sub_cancel] at hk
    rw [decide_eq_false (by
      have hn : (0 : R) ≤ n := Nat.cast_nonneg n
      push_cast; rw [hb]; linarith)]
    have et : ceRange (x (n + 1)) (x n).close = ceTr x (n + 1) := rfl
    have g1 := Ring.now_get (fun k => (x k).close) 2 (n + 1) 1 1 rfl (by omega) (by omega)
    rw [show n + 1 - 1 = n by omega] at g1
    by_cases h1 : n + 1 < p - 1
    · rw [decide_eq_true (by omega)]
      dsimp only
      rw [if_pos h1, e2, bind_ok, g1, bind_ok, et, e1, bind_ok]
      exact ⟨_, rfl, rfl, rfl, (mhlSum_warm _ _ _ h1).symm, fun _ => hKt _ _ _ (by omega) hk⟩
    rw [decide_eq_false (by omega)]
    dsimp only
    obtain ⟨s', h3, hk'⟩ := hKp _ _ _ hk
    obtain ⟨v1, v2⟩ := hV _ _ _ hk'
    have hs' : toInt (o 0 - c! 1) = .ok ((p - 1 : Nat) : Int) := hs
    rw [if_neg h1, e2, bind_ok, g1, bind_ok, et, e1, bind_ok, h3, bind_ok, cmiOut_ok v1 v2, bind_ok, hs', bind_ok,
      Ring.now_get (ceTr x) p (n + 1) ((p - 1 : Nat) : Int) (p - 1) (by omega) (by omega) (by omega), bind_ok,
      show p - 1 + (n + 1 - (p - 1)) = n + 1 by omega]
    refine ⟨_, rfl, rfl, rfl, ?_, fun _ => hk'⟩
    dsimp only
    rw [mhlSum, if_neg h1]

theorem cmi_stream_run (o : Nat → R) (p : Nat) (ho : o 0 = ((p : Int) : R)) (hc : toInt (o 0) = .ok (p : Int))
    (hs : cmiStart o = .ok ((p - 1 : Nat) : Int)) (hp : 2 ≤ p) :
    (cmi (R := R)).StreamComputes o (p - 1) fun x j => cmiVal (CMath.log ((p : Int) : R)) (recMax p (ceTr x)) (recMin p (ceTr x)) (ceTr x) p
      (p - 1 + j) := by
  have := cmi_stream_gen o p hc hs hp (by rw [ho]; simp) (by rw [ho]; simp) (fun t n s => HiLo.Kept t t p (-((p - 1 : Nat) : Int)) n s)
    (recMax p) (recMin p) (fun t => HiLo.set_init t p (by omega) _ _ _ rfl rfl)
    (fun t n s h1 hk => HiLo.take_step (by omega) hk h1 _ rfl)
    (fun t n s hk => HiLo.phys_step (by omega) hk _ rfl (fun a ha => by
      rw [ho]
      show decide _ = _
      congr 1
      rw [eq_iff_iff]
      constructor
      · intro h; exact_mod_cast h
      · intro h; exact_mod_cast h))
    (fun t n s hk => ⟨hk.hi (by omega), hk.lo (by omega)⟩)
  rw [ho] at this
  exact this

/-- Highest value so far. -/
def allMax (t : Nat → R) (n : Nat) : R := winMax (n + 1) t 0
def allMin (t : Nat → R) (n : Nat) : R := winMin (n + 1) t 0

theorem recMax_all (p : Nat) (t : Nat → R) (n : Nat) (h : n < p) : recMax p t n = allMax t n := by
  unfold recMax allMax; rw [min_eq_right (by omega), Nat.sub_self]
theorem recMin_all (p : Nat) (t : Nat → R) (n : Nat) (h : n < p) : recMin p t n = allMin t n := by
  unfold recMin allMin; rw [min_eq_right (by omega), Nat.sub_self]

theorem HiLo.phys_take (s : HiLo R) (r : Ring R) (due : Int → Bool) (i : Int) (v : R) (a b : Int) (ha : s.hi.idx = some a)
    (hb : s.lo.idx = some b) (hda : due a = false) (hdb : due b = false) : s.phys r due i v = .ok (s.take v v i) := by
  unfold HiLo.phys Ext.phys
  rw [ha, hb]
  simp only [getV, bind_ok, hda, hdb]
  rfl

/-- A period that is not a whole number: no position ever leaves the window. -/
theorem cmi_stream_frac (o : Nat → R) (p : Nat) (hc : toInt (o 0) = .ok (p : Int)) (hs : cmiStart o = .ok ((p - 1 : Nat) : Int))
    (hp : 2 ≤ p) (hv1 : (p : R) < o 0) (hv2 : o 0 < (p : R) + 1) :
    (cmi (R := R)).StreamComputes o (p - 1) fun x j => cmiVal (CMath.log (o 0)) (allMax (ceTr x)) (allMin (ceTr x)) (ceTr x) p
      (p - 1 + j) := by
  refine cmi_stream_gen o p hc hs hp hv1.le hv2 (fun t n s => ∀ w, n < w → HiLo.Kept t t w (-((p - 1 : Nat) : Int)) n s)
    allMax allMin (fun t w hw => HiLo.set_init t w (by omega) _ _ _ rfl rfl)
    (fun t n s h1 hk w hw => HiLo.take_step (by omega) (hk w (by omega)) hw _ rfl) ?_
    (fun t n s hk => ⟨?_, ?_⟩)
  · intro t n s hk
    have hidx : ∀ i j : Int, ((i : R) == (j : R) - o 0) = false := by
      intro i j
      have : ¬ ((i : R) = (j : R) - o 0) := by
        intro h
        have h1 : o 0 = ((j - i : Int) : R) := by push_cast; linarith
        rw [h1] at hv1 hv2
        have a1 : (p : Int) < j - i := by exact_mod_cast hv1
        have a2 : j - i < (p : Int) + 1 := by exact_mod_cast hv2
        omega
      exact decide_eq_false this
    obtain ⟨⟨a, _, ha, _⟩, ⟨b, _, hb, _⟩⟩ := hk (n + 1) (by omega)
    refine ⟨_, HiLo.phys_take s _ _ _ _ _ _ ha hb (hidx _ _) (hidx _ _), fun w hw => HiLo.take_step (by omega) (hk w (by omega)) hw _ rfl⟩
  · rw [(hk (n + 1) (by omega)).hi (by omega), recMax_all _ _ _ (by omega)]
  · rw [(hk (n + 1) (by omega)).lo (by omega), recMin_all _ _ _ (by omega)]

/-! ### Reference implementations -/

theorem pfeRef_run [LawfulTrunc R] [LawfulRound R] (o : Nat → R) (p e : Nat) (ho : o 0 = ((p : Int) : R)) (hb : p ≤ 2147483647)
    (hce : toInt (o 1) = .ok (e : Int)) (hp : 1 ≤ p) (he : 1 ≤ e) (x : Nat → R) (N : Nat) (hN : N ≤ 2147483647) :
    pfeRef o (pre x N) = .ok (.okay, pre (emaRec (emaPer e) (pfeRaw p x)) (N - p)) := by
  have hcp : toInt (o 0) = .ok (p : Int) := by rw [ho]; exact toInt_cast _ (by omega)
  have hlt : ¬ o 0 < c! 1 := not_lt_one hcp hp
  unfold pfeRef
  rw [if_neg hlt]
  simp only [pfeStart, hcp, bind_ok, length_pre]
  by_cases hNp : N ≤ p
  · rw [if_pos (by omega), Nat.sub_eq_zero_of_le hNp]; rfl
  rw [if_neg (by omega)]
  refine forUp_bind p N (fun i => pre (pfeRaw p x) (i - p)) rfl rfl (by simp) (by omega) ?_ ?_
  · intro i h1 h2
    have elo : toInt (((i : Int) : R) - o 0 + c! 1) = .ok ((i - p + 1 : Nat) : Int) := by
      rw [ho, show ((i : Int) : R) - ((p : Int) : R) + c! 1 = (((i - p + 1 : Nat) : Int) : R) by
        rw [show ((i - p + 1 : Nat) : Int) = (i : Int) - p + 1 by omega]; push_cast; ring]
      exact toInt_cast _ (by omega)
    rw [elo, bind_ok]
    refine forUp_bind (i - p + 1) (i + 1) (fun j => winSum (j - (i - p + 1)) (pfeMove x) (i - p)) rfl (by omega) (by simp [winSum]) (by omega)
      ?_ ?_
    · intro j h3 h4
      rw [rd_pre_nat _ _ _ (by omega), bind_ok, rd_at (j - 1) (by omega) (by omega), bind_ok]
      obtain ⟨d, rfl⟩ : ∃ d, j = i - p + 1 + d := ⟨j - (i - p + 1), by omega⟩
      rw [show i - p + 1 + d + 1 - (i - p + 1) = d + 1 by omega, show i - p + 1 + d - (i - p + 1) = d by omega]
      simp only [winSum, Finset.sum_range_succ, pure_eq]
      rw [show i - p + 1 + d - 1 = i - p + d by omega, show pfeMove x (i - p + d) = pfeStep (x (i - p + d + 1)) (x (i - p + d)) from rfl,
        show i - p + d + 1 = i - p + 1 + d by omega]
    · rw [rd_pre_nat _ _ _ (by omega), bind_ok, rd_at (i - p) (by omega) (by omega), bind_ok,
        show i + 1 - (i - p + 1) = p by omega, ← slideS_eq (pfeMove x) p (i - p) hp]
      have ev : pfeNumer (x i) (x (i - p)) / (slideS (pfeMove x) p (i - p + (p - 1)) + pfeMove x (i - p + (p - 1))) = pfeRaw p x (i - p) := by
        rw [pfeRaw, show i - p + p = i by omega]
      rw [ev, wr_pre _ _ _ _ (by omega) rfl, show i - p + 1 = i + 1 - p by omega]
  · have en : toInt (((N : Int) : R) - o 0) = .ok ((N - p : Nat) : Int) := by
      rw [ho, show ((N : Int) : R) - ((p : Int) : R) = (((N - p : Nat) : Int) : R) by
        rw [show ((N - p : Nat) : Int) = (N : Int) - p by omega]; push_cast; ring]
      exact toInt_cast _ (by omega)
    rw [en, bind_ok, Int.toNat_natCast, List.take_of_length_le (by simp), List.drop_of_length_le (by simp),
      emaInPlace_pre (o := fun _ => o 1) hce he, bind_ok, List.append_nil]
    rfl

theorem maxUp_val {x : Nat → R} {p N i : Nat} (hp : 1 ≤ p) (hi : i < N) (f : R → M α) :
    (maxUp cmpLess (pre x N) ((i : Int) - p + 1).toNat ((i : Int) + 1).toNat >>= fun k => rd (pre x N) k >>= f) = f (recMax p x i) := by
  obtain ⟨it, h1, h2, h3, h4⟩ := maxUp_finds less_cmp x N ((i : Int) - p + 1).toNat ((i : Int) + 1).toNat (by omega) (by omega)
  rw [h1, bind_ok, rd_pre_nat _ _ _ (by omega), bind_ok]
  congr 1
  have hk : Ext.Kept (· ≤ ·) x p 0 i ⟨some (x it), some (0 + it)⟩ :=
    ⟨it, rfl, rfl, by omega, by omega, fun k hk1 hk2 => h4 k (by omega) (by omega)⟩
  exact Option.some.inj (hk.max hp)
theorem minUp_val {x : Nat → R} {p N i : Nat} (hp : 1 ≤ p) (hi : i < N) (f : R → M α) :
    (maxUp cmpGreater (pre x N) ((i : Int) - p + 1).toNat ((i : Int) + 1).toNat >>= fun k => rd (pre x N) k >>= f) = f (recMin p x i) := by
  obtain ⟨it, h1, h2, h3, h4⟩ := maxUp_finds greater_cmp x N ((i : Int) - p + 1).toNat ((i : Int) + 1).toNat (by omega) (by omega)
  rw [h1, bind_ok, rd_pre_nat _ _ _ (by omega), bind_ok]
  congr 1
  have hk : Ext.Kept (fun a b => b ≤ a) x p 0 i ⟨some (x it), some (0 + it)⟩ :=
    ⟨it, rfl, rfl, by omega, by omega, fun k hk1 hk2 => h4 k (by omega) (by omega)⟩
  exact Option.some.inj (hk.min hp)

theorem mhlSum_slide (ma : Nat) (hma : 2 ≤ ma) (m : Nat → R) (n : Nat) : mhlSum ma m n = slideS m ma n := by
  induction n with
  | zero => rfl
  | succ n ih =>
    cases n with
    | zero => rw [slideS, if_pos (by omega)]; rfl
    | succ n => rw [mhlSum, slideS, ih]

theorem cmiRef_run (o : Nat → R) (p : Nat) (hc : toInt (o 0) = .ok (p : Int)) (hlt : ¬ o 0 < c! 1)
    (hs : cmiStart o = .ok ((p - 1 : Nat) : Int)) (hp : 2 ≤ p) (x : Nat → HLC R) (N : Nat) (hN : p ≤ N + 1) (hb : N ≤ 2147483647) :
    cmiRef o (pre x N) = .ok (.okay, pre (fun j => cmiVal (CMath.log (o 0)) (recMax p (trSig x)) (recMin p (trSig x)) (trSig x) p
      (p - 1 + j)) (N - (p - 1))) := by
  unfold cmiRef
  rw [if_neg hlt, hc, bind_ok, length_pre, i32_ok _ (by omega) (by omega), bind_ok, if_neg (by omega)]
  have htr : trBatch (fun _ => c! 0) (pre x N) = .ok (.okay, pre (trSig x) N) := tr_run _ x N
  have hsum : sumBatch o (pre (trSig x) N) = .ok (.okay, pre (fun j => slide (trSig x) p (j + p)) (N - (p - 1))) :=
    sumBatch_run o p hc (by omega) (trSig x) N
  simp only [pure_eq, bind_ok, htr, hsum, hs]
  refine forUp_bind (p - 1) (max (p - 1) N) (fun i => pre (fun j => cmiVal (CMath.log (o 0)) (recMax p (trSig x)) (recMin p (trSig x))
    (trSig x) p (p - 1 + j)) (i - (p - 1))) rfl (by omega) (by simp) (by omega) ?_ ?_
  · intro i h1 h2
    rw [maxUp_val (by omega) (by omega), minUp_val (by omega) (by omega), rd_at (i - (p - 1)) (by omega) (by omega), bind_ok]
    have ev : CMath.log ((recMax p (trSig x) i - recMin p (trSig x) i) / slide (trSig x) p (i - (p - 1) + p)) / CMath.log (o 0) * c! 100 =
        cmiVal (CMath.log (o 0)) (recMax p (trSig x)) (recMin p (trSig x)) (trSig x) p (p - 1 + (i - (p - 1))) := by
      rw [cmiVal, mhlSum_slide p hp, show p - 1 + (i - (p - 1)) = i by omega, slide_eq]
      have := slideS_eq (trSig x) p (i - (p - 1)) (by omega)
      rw [show i - (p - 1) + (p - 1) = i by omega] at this
      rw [this]
    rw [ev, wr_pre _ _ _ _ (by omega) rfl, show i - (p - 1) + 1 = i + 1 - (p - 1) by omega]
  · rw [show max (p - 1) N - (p - 1) = N - (p - 1) by omega]

theorem mhlmaRef_run (o : Nat → R) (p ma : Nat) (hcp : toInt (o 0) = .ok (p : Int)) (hcm : toInt (o 1) = .ok (ma : Int))
    (h0 : ¬ o 0 < c! 1) (h1 : ¬ o 1 < c! 1) (hs : mhlmaStart o = .ok ((ma - 1 : Nat) : Int)) (hp : 1 ≤ p) (hma : 1 ≤ ma) :
    Computes (mhlmaRef false) o (ma - 1) fun x j =>
      ⟨winMean ma (mhlM p x) j, ema (emaCoef ma) (mhlM p x) (j + (ma - 1))⟩ := by
  intro x N
  unfold mhlmaRef
  rw [if_neg (by push Not; exact ⟨not_lt.1 h0, not_lt.1 h1⟩), hcp, bind_ok, length_pre]
  refine forUp_bind 0 N (fun i => pre (mhlM p x) i) rfl rfl rfl (by omega) ?_ ?_
  · intro i _ hi
    rw [if_neg (by simp)]
    simp only [pure_eq, bind_ok]
    rw [maxUp_val hp hi, minUp_val hp hi, pre_succ (mhlM p x) i]
    rfl
  have e1 : smaBatch (fun _ => o 1) (pre (mhlM p x) N) = .ok (.okay, pre (winMean ma (mhlM p x)) (N - (ma - 1))) :=
    ((smaBatch_run (fun _ => o 1) ma hcm hma).congr fun x j => by simp [slide_eq, winMean, div_eq_mul_inv]) (mhlM p x) N
  have e2 : emaBatch (fun _ => o 1) (pre (mhlM p x) N) = .ok (.okay, pre (emaRec (emaPer ma) (mhlM p x)) N) :=
    ema_run (fun _ => o 1) ma hcm hma (mhlM p x) N
  simp only [e1, e2, bind_ok, hs]
  by_cases hN : N ≤ ma - 1
  · rw [forUp_empty (by omega), bind_ok, Nat.sub_eq_zero_of_le hN]; rfl
  refine forUp_bind (ma - 1) N (fun i => pre (fun j => ema (emaCoef ma) (mhlM p x) (j + (ma - 1))) (i - (ma - 1))) rfl
    rfl (by simp) (by omega) ?_ ?_
  · intro i h2 h3
    rw [rd_pre_nat _ _ _ (by omega), bind_ok, emaRec_eq, emaPer_eq]
    rw [wr_pre _ _ _ _ (by omega) ?_, show i - (ma - 1) + 1 = i + 1 - (ma - 1) by omega]
    rw [show i - (ma - 1) + (ma - 1) = i by omega]
  · simp [pure_eq, pre, List.zipWith_map_left, List.zipWith_map_right]

end Field
end Verif
