/- C74: bounded input, bounded output. -/
import Verif.Spec.Gain
import Verif.Proof.Gain
import Verif.Proof.GainTables
import Verif.Props.Filters
import Verif.Props.Ema

namespace Verif
open Spec
set_option linter.unusedSectionVars false

section
variable {R : Type} [Field R] [LinearOrder R] [IsStrictOrderedRing R] [CMath R]

theorem eq_pre_getD (xs : List R) : xs = pre (fun n => xs.getD n 0) xs.length := by
  apply List.ext_getElem
  · simp [pre]
  · intro i h1 h2; simp [pre, h1]

theorem gainAtMost_of {batch : (Nat → R) → List R → M (Ret × List R)} {o : Nat → R} {s : Nat} {y : (Nat → R) → Nat → R} {G : R}
    (hc : Computes batch o s (fun x j => y x (j + s))) (hy : ∀ x B, (∀ n, |x n| ≤ B) → ∀ n, |y x n| ≤ G * B) : GainAtMost batch o G := by
  intro B xs hB r ys hr v hv
  by_cases hx : xs = []
  · subst hx
    have := hc (fun _ => 0) 0
    have e : pre (fun _ : Nat => (0 : R)) 0 = [] := rfl
    rw [e, hr] at this
    cases this
    simp [pre] at hv
  · have hB0 : 0 ≤ B := by
      obtain ⟨a, l, rfl⟩ := List.exists_cons_of_ne_nil hx
      exact (abs_nonneg a).trans (hB a (by simp))
    have e : xs = pre (fun n => xs.getD n 0) xs.length := eq_pre_getD xs
    have := hc (fun n => xs.getD n 0) xs.length
    rw [← e, hr] at this
    cases this
    simp only [pre, List.mem_map, List.mem_range] at hv
    obtain ⟨j, _, rfl⟩ := hv
    refine hy _ B (fun n => ?_) _
    by_cases hn : n < xs.length
    · simp only [List.getD_eq_getElem?_getD, List.getElem?_eq_getElem hn, Option.getD_some]; exact hB _ (List.getElem_mem hn)
    · simp only [List.getD_eq_getElem?_getD, List.getElem?_eq_none (Nat.le_of_not_lt hn), Option.getD_none, abs_zero]; exact hB0

/-- A stream that agrees with its batch function has its gain. -/
theorem streamGain_of {I : Indicator R R R} {o : Nat → R} {s : Nat} {G : R} (h : GainAtMost I.batch o G) (he : I.StreamEqBatch o s) :
    StreamGainAtMost I o G := by
  intro B chunks hB r p ys hr
  obtain ⟨out, h1, h2⟩ := he chunks
  rw [h2] at hr
  cases hr
  exact h B _ hB _ _ h1

/-- A series with four zeros in front. -/
def lead (y : Nat → R) (n : Nat) : R := if n < 4 then 0 else y (n - 4)

theorem lead_add (y : Nat → R) (n : Nat) : lead y (n + 4) = y n := by unfold lead; rw [if_neg (by omega)]; rfl
theorem past_lead (y : Nat → R) (n k : Nat) (hk : k < 4) : (past y n).getD k 0 = lead y (n + (3 - k)) := by
  unfold lead
  by_cases h : k < n
  · rw [if_neg (by omega), List.getD_eq_getElem?_getD, past_getElem? _ _ _ h]
    simp only [Option.getD_some]; congr 1; omega
  · rw [if_pos (by omega), List.getD_eq_getElem?_getD, List.getElem?_eq_none]
    · rfl
    · have : (past y n).length = n := by
        clear h
        induction n with
        | zero => rfl
        | succ n ih => simp [past, ih]
      omega

theorem dot_abs (c : List R) (B : R) (hB : 0 ≤ B) : ∀ l : List R, (∀ v ∈ l, |v| ≤ B) → |dot c l| ≤ (c.map (fun v => |v|)).sum * B := by
  induction c with
  | nil => intro l _; simp [dot]
  | cons a c ih =>
    intro l hl
    have hs : 0 ≤ (c.map (fun v => |v|)).sum := List.sum_nonneg (by simp)
    cases l with
    | nil =>
      simp only [dot, List.zipWith_nil_right, List.sum_nil, abs_zero, List.map_cons, List.sum_cons]
      positivity
    | cons b l =>
      rw [dot_cons]
      simp only [List.map_cons, List.sum_cons]
      have h1 := abs_add_le (a * b) (dot c l)
      rw [abs_mul] at h1
      have h2 := mul_le_mul_of_nonneg_left (hl b (by simp)) (abs_nonneg a)
      have h3 := ih l (fun v hv => hl v (by simp [hv]))
      linarith

theorem past_mem (x : Nat → R) (n : Nat) (v : R) (h : v ∈ past x n) : ∃ i, v = x i := by
  induction n with
  | zero => simp [past] at h
  | succ n ih =>
    simp only [past, List.mem_cons] at h
    rcases h with rfl | h
    · exact ⟨n, rfl⟩
    · exact ih h

theorem past_mem_lt (x : Nat → R) (n : Nat) (v : R) (h : v ∈ past x n) : ∃ i, i < n ∧ v = x i := by
  induction n with
  | zero => simp [past] at h
  | succ n ih =>
    simp only [past, List.mem_cons] at h
    rcases h with rfl | h
    · exact ⟨n, by omega, rfl⟩
    · obtain ⟨i, hi, e⟩ := ih h; exact ⟨i, by omega, e⟩

/-- A filter of order at most four with zero history and rational coefficients, from a certificate. -/
theorem iir_gain (b : List R) (a : List R) (S a1 a2 a3 a4 wn wd : Int) (K : Nat) (hS : 0 < S) (hwd : 0 < wd) (hwn : 0 ≤ wn) (p : Int) (hp : 1 ≤ p)
    (hc : Gain.check S a1 a2 a3 a4 wn wd p K a1 a2 a3 a4 1 S = true)
    (ha : ∀ y n, (S : R) * dot a (past y n) = a1 * lead y (n + 3) + a2 * lead y (n + 2) + a3 * lead y (n + 1) + a4 * lead y n)
    (x : Nat → R) (B : R) (hB : ∀ n, |x n| ≤ B) (n : Nat) : |iir b a x n| ≤ wn / wd * ((b.map (fun v => |v|)).sum * B) := by
  have hB0 : 0 ≤ B := (abs_nonneg _).trans (hB 0)
  have h := Gain.bounded (R := R) (z := lead (iir b a x)) (u := fun n => dot b (past x (n + 1))) (U := (b.map (fun v => |v|)).sum * B) (Z := 0)
    K hS hwd hwn hp hc (fun n => ?_) (fun n => ?_) (fun n hn => ?_) (n + 4)
  · rwa [lead_add, mul_zero, add_zero] at h
  · rw [lead_add, ← ha]
    conv_lhs => unfold iir
    rw [iirPast_past]
    ring
  · refine dot_abs b B hB0 _ fun v hv => ?_
    obtain ⟨i, rfl⟩ := past_mem x _ v hv
    exact hB i
  · unfold lead; rw [if_pos hn, abs_zero]

/-! ### gf1, gf3, lf -/

/-- A filter whose coefficients add up to at most 1 in size has gain at most 1. -/
theorem iir_convex (b a : List R) (h : (b.map (fun v => |v|)).sum + (a.map (fun v => |v|)).sum ≤ 1) (x : Nat → R) (B : R) (hB : ∀ n, |x n| ≤ B)
    (n : Nat) : |iir b a x n| ≤ 1 * B := by
  have hB0 : 0 ≤ B := (abs_nonneg _).trans (hB 0)
  induction n using Nat.strong_induction_on with
  | _ n ih =>
    unfold iir
    rw [iirPast_past]
    refine (abs_add_le _ _).trans ?_
    have h1 := dot_abs b B hB0 (past x (n + 1)) fun v hv => by
      obtain ⟨i, rfl⟩ := past_mem x _ v hv; exact hB i
    have h2 := dot_abs a B hB0 (past (iir b a x) n) fun v hv => by
      obtain ⟨i, hi, rfl⟩ := past_mem_lt _ _ v hv
      simpa using ih i hi
    have h3 := mul_le_mul_of_nonneg_right h hB0
    linarith

/-- gf1 never leaves the range of its input. -/
theorem gf1_gain (o : Nat → R) (q : Nat) (h1 : 1 ≤ q) (h2 : q ≤ 20) (hc : toInt (o 0) = .ok ((2 * q : Nat) : Int)) : GainAtMost gf1Batch o 1 := by
  refine gainAtMost_of (s := 0) (gf1_value o q h1 h2 hc) fun x B hB n => iir_convex _ _ (le_of_eq ?_) x B hB n
  have e := gf1_sum (R := R) q h1 h2
  have hb := coef_pos (R := R) gf1B0 (by decide) q h1 h2
  have ha := coef_pos (R := R) gf1A1 (by decide) q h1 h2
  simp only [List.map_cons, List.map_nil, List.sum_cons, List.sum_nil, add_zero, abs_of_pos hb, abs_of_pos ha, e]

/-- Neither does gf3. -/
theorem gf3_gain (o : Nat → R) (q : Nat) (h1 : 1 ≤ q) (h2 : q ≤ 20) (hc : toInt (o 0) = .ok ((2 * q : Nat) : Int)) : GainAtMost gf3Batch o 1 := by
  refine gainAtMost_of (s := 0) (gf3_ignores_period o q h1 h2 hc) fun x B hB n => iir_convex _ _ (le_of_eq ?_) x B hB n
  simp only [List.map_cons, List.map_nil, List.sum_cons, List.sum_nil, add_zero, abs_of_pos (by norm_num : (0 : R) < 1 / 4)]
  norm_num

theorem iir_sec0 (g : R) (x : Nat → R) : iir [-g, 1] [g] x 0 = -g * x 0 := by
  unfold iir; rw [dot2, dot1]; simp [past, iirPast]
theorem iir_sec (g : R) (x : Nat → R) (n : Nat) : iir [-g, 1] [g] x (n + 1) = -g * x (n + 1) + x n + g * iir [-g, 1] [g] x n := by
  conv_lhs => unfold iir
  rw [iirPast_past, dot2, dot1]; simp [past]
theorem iir_lag0 (g : R) (x : Nat → R) : iir [1 - g] [g] x 0 = (1 - g) * x 0 := by
  unfold iir; rw [dot1, dot1]; simp [past, iirPast]
theorem iir_lag (g : R) (x : Nat → R) (n : Nat) : iir [1 - g] [g] x (n + 1) = (1 - g) * x (n + 1) + g * iir [1 - g] [g] x n := by
  conv_lhs => unfold iir
  rw [iirPast_past, dot1, dot1]; simp [past]

/-- One section of the Laguerre filter. -/
theorem section_gain (g : R) (h0 : 0 ≤ g) (h1 : g ≤ 1) (x : Nat → R) (B : R) (hB : ∀ n, |x n| ≤ B) (n : Nat) :
    |iir [-g, 1] [g] x n| ≤ (1 + 2 * g) * B := by
  have hB0 : 0 ≤ B := (abs_nonneg _).trans (hB 0)
  have hw : |iir [-g, 1] [g] x n + g * x n| ≤ (1 + g) * B := by
    induction n with
    | zero =>
      rw [iir_sec0]
      have : -g * x 0 + g * x 0 = 0 := by ring
      rw [this, abs_zero]
      positivity
    | succ n ih =>
      have e : iir [-g, 1] [g] x (n + 1) + g * x (n + 1) = (1 - g ^ 2) * x n + g * (iir [-g, 1] [g] x n + g * x n) := by
        rw [iir_sec]; ring
      rw [e]
      refine (abs_add_le _ _).trans ?_
      have hg : 0 ≤ 1 - g ^ 2 := by nlinarith
      rw [abs_mul, abs_mul, abs_of_nonneg hg, abs_of_nonneg h0]
      have a := mul_le_mul_of_nonneg_left (hB n) hg
      have b := mul_le_mul_of_nonneg_left ih h0
      calc _ ≤ (1 - g ^ 2) * B + g * ((1 + g) * B) := add_le_add a b
        _ = _ := by ring
  have e : iir [-g, 1] [g] x n = (iir [-g, 1] [g] x n + g * x n) - g * x n := by ring
  rw [e]
  refine (abs_sub _ _).trans ?_
  rw [abs_mul, abs_of_nonneg h0]
  have := mul_le_mul_of_nonneg_left (hB n) h0
  linarith

/-- lf with a damping factor of at most 1. Partial: not above. -/
theorem lf_gain_partial (o : Nat → R) (h0 : 0 ≤ o 0) (h1 : o 0 ≤ 1) :
    GainAtMost lfBatch o ((1 + 2 * (1 + 2 * o 0) + 2 * (1 + 2 * o 0) ^ 2 + (1 + 2 * o 0) ^ 3) / 6) := by
  refine gainAtMost_of (s := 0) (y := fun x n => (iir [1 - o 0] [o 0] x n + 2 * iir [-o 0, 1] [o 0] (iir [1 - o 0] [o 0] x) n
    + 2 * iir [-o 0, 1] [o 0] (iir [-o 0, 1] [o 0] (iir [1 - o 0] [o 0] x)) n
    + iir [-o 0, 1] [o 0] (iir [-o 0, 1] [o 0] (iir [-o 0, 1] [o 0] (iir [1 - o 0] [o 0] x))) n) / 6) (lf_value o h0) fun x B hB n => ?_
  have b0 : ∀ n, |iir [1 - o 0] [o 0] x n| ≤ B := fun n => by
    have := iir_convex [1 - o 0] [o 0] (by
      simp only [List.map_cons, List.map_nil, List.sum_cons, List.sum_nil, add_zero, abs_of_nonneg h0, abs_of_nonneg (sub_nonneg.2 h1)]
      linarith) x B hB n
    linarith
  have b1 := section_gain (o 0) h0 h1 _ B b0
  have b2 := section_gain (o 0) h0 h1 _ _ b1
  have b3 := section_gain (o 0) h0 h1 _ _ b2
  generalize iir [1 - o 0] [o 0] x = L0 at *
  generalize iir [-o 0, 1] [o 0] L0 = L1 at *
  generalize iir [-o 0, 1] [o 0] L1 = L2 at *
  generalize iir [-o 0, 1] [o 0] L2 = L3 at *
  have c0 := abs_le.1 (b0 n)
  have c1 := abs_le.1 (b1 n)
  have c2 := abs_le.1 (b2 n)
  have c3 := abs_le.1 (b3 n)
  rw [abs_div, abs_of_pos (by norm_num : (0 : R) < 6), div_le_iff₀ (by norm_num), abs_le]
  constructor <;> linarith [c0.1, c0.2, c1.1, c1.2, c2.1, c2.2, c3.1, c3.2]

/-- lf accepts every damping factor above 1, and then even a price that never moves sends the output beyond every limit. -/
theorem lf_gain_violates [Archimedean R] (o : Nat → R) (h : 1 < o 0) : Diverges lfBatch o := by
  refine ⟨fun _ => 2, fun n => by norm_num, fun _ _ => rfl, fun C => ?_⟩
  have hv := lf_value o (by linarith)
  by_contra hne
  push Not at hne
  generalize o 0 = g at *
  have hL0 : ∀ n, iir [1 - g] [g] (fun _ => (2 : R)) n = 2 * (1 - g ^ (n + 1)) := by
    intro n
    induction n with
    | zero => rw [iir_lag0]; ring
    | succ n ih => rw [iir_lag, ih]; ring
  generalize hl0 : iir [1 - g] [g] (fun _ => (2 : R)) = L0 at *
  generalize hl1 : iir [-g, 1] [g] L0 = L1 at *
  generalize hl2 : iir [-g, 1] [g] L1 = L2 at *
  generalize hl3 : iir [-g, 1] [g] L2 = L3 at *
  have s1 : ∀ n, L1 (n + 1) = -g * L0 (n + 1) + L0 n + g * L1 n := fun n => by rw [← hl1]; exact iir_sec g L0 n
  have s2 : ∀ n, L2 (n + 1) = -g * L1 (n + 1) + L1 n + g * L2 n := fun n => by rw [← hl2]; exact iir_sec g L1 n
  have s3 : ∀ n, L3 (n + 1) = -g * L2 (n + 1) + L2 n + g * L3 n := fun n => by rw [← hl3]; exact iir_sec g L2 n
  have hy : ∀ n, |L0 n + 2 * L1 n + 2 * L2 n + L3 n| ≤ 6 * C := by
    intro n
    have := hne (n + 1) _ (hv (fun _ => 2) (n + 1)) ((L0 n + 2 * L1 n + 2 * L2 n + L3 n) / 6) (by
      simp only [pre, List.mem_map, List.mem_range, Nat.sub_zero]
      refine ⟨n, by omega, ?_⟩
      simp only [hl0, hl1, hl2, hl3])
    rw [abs_div, abs_of_pos (by norm_num : (0 : R) < 6), div_le_iff₀ (by norm_num)] at this
    linarith
  have key : ∀ n, 2 * (g ^ 2 - 1) ^ 3 * g ^ (n + 1) ≤ 6 * C * (1 + g) ^ 3 + 12 * (g - 1) ^ 3 := by
    intro n
    have e : (L0 (n + 3) + 2 * L1 (n + 3) + 2 * L2 (n + 3) + L3 (n + 3)) - 3 * g * (L0 (n + 2) + 2 * L1 (n + 2) + 2 * L2 (n + 2) + L3 (n + 2))
        + 3 * g ^ 2 * (L0 (n + 1) + 2 * L1 (n + 1) + 2 * L2 (n + 1) + L3 (n + 1)) - g ^ 3 * (L0 n + 2 * L1 n + 2 * L2 n + L3 n)
        = 2 * (g ^ 2 - 1) ^ 3 * g ^ (n + 1) - 12 * (g - 1) ^ 3 := by
      rw [s3 (n + 2), s3 (n + 1), s3 n, s2 (n + 2), s2 (n + 1), s2 n, s1 (n + 2), s1 (n + 1), s1 n, hL0, hL0, hL0, hL0]
      ring
    have y0 := abs_le.1 (hy (n + 3))
    have y1 := abs_le.1 (hy (n + 2))
    have y2 := abs_le.1 (hy (n + 1))
    have y3 := abs_le.1 (hy n)
    have g0 : 0 ≤ g := by linarith
    have m1 := mul_le_mul_of_nonneg_left y1.1 (by positivity : (0 : R) ≤ 3 * g)
    have m2 := mul_le_mul_of_nonneg_left y2.2 (by positivity : (0 : R) ≤ 3 * g ^ 2)
    have m3 := mul_le_mul_of_nonneg_left y3.1 (by positivity : (0 : R) ≤ g ^ 3)
    have y0' := y0.2
    have ex : 6 * C * (1 + g) ^ 3 = 6 * C + 3 * g * (6 * C) + 3 * g ^ 2 * (6 * C) + g ^ 3 * (6 * C) := by ring
    rw [ex]
    linarith
  have hp : 0 < 2 * (g ^ 2 - 1) ^ 3 := by
    have : 0 < g ^ 2 - 1 := by nlinarith
    positivity
  obtain ⟨n, hn⟩ := pow_unbounded_of_one_lt ((6 * C * (1 + g) ^ 3 + 12 * (g - 1) ^ 3) / (2 * (g ^ 2 - 1) ^ 3)) h
  rw [div_lt_iff₀ hp] at hn
  have h1 := key n
  have h2 : g ^ n ≤ g ^ (n + 1) := by
    rw [pow_succ]; exact le_mul_of_one_le_right (by positivity) h.le
  have h3 := mul_le_mul_of_nonneg_left h2 hp.le
  linarith

/-! ### gf2, bf2, bf3 -/

attribute [local irreducible] Gain.check

/-- gf2 overshoots by at most 1%. -/
theorem gf2_gain (o : Nat → R) (q : Nat) (h1 : 1 ≤ q) (h2 : q ≤ 20) (hc : toInt (o 0) = .ok ((2 * q : Nat) : Int)) :
    GainAtMost gf2Batch o (101 / 100) := by
  refine gainAtMost_of (s := 0) (gf2_value o q h1 h2 hc) fun x B hB n => ?_
  have hb := rows (P := fun i => 0 < gf2B0.getD i 0) (by decide) q h1 h2
  have hS := rows (P := fun i => 0 < gf2B0.getD i 0 + gf2A1.getD i 0 + gf2A2.getD i 0) (by decide) q h1 h2
  have hk := rows (P := fun i => Gain.check (gf2B0.getD i 0 + gf2A1.getD i 0 + gf2A2.getD i 0) (gf2A1.getD i 0) (gf2A2.getD i 0) 0 0
    (101 * (gf2B0.getD i 0 + gf2A1.getD i 0 + gf2A2.getD i 0)) (100 * gf2B0.getD i 0) 4 60
    (gf2A1.getD i 0) (gf2A2.getD i 0) 0 0 1 (gf2B0.getD i 0 + gf2A1.getD i 0 + gf2A2.getD i 0) = true)
    gf2_cert q h1 h2
  simp only [coef_cast]
  generalize gf2B0.getD (q - 1) 0 = b0 at *
  generalize gf2A1.getD (q - 1) 0 = a1 at *
  generalize gf2A2.getD (q - 1) 0 = a2 at *
  have hb' : (0 : R) < b0 := by exact_mod_cast hb
  have hS' : (0 : R) < (b0 : R) + a1 + a2 := by exact_mod_cast hS
  have e : (b0 : R) / 1000000 + a1 / 1000000 + a2 / 1000000 = (b0 + a1 + a2) / 1000000 := by ring
  rw [e]
  have d : ∀ t : R, t / 1000000 / ((b0 + a1 + a2) / 1000000) = t / (b0 + a1 + a2) := fun t => by field_simp
  rw [d, d, d]
  refine (iir_gain _ _ _ _ _ _ _ _ _ 60 hS (by omega) (by omega) 4 (by omega) hk (fun y m => ?_) x B hB n).trans (le_of_eq ?_)
  · rw [dot2, past_lead y m 0 (by omega), past_lead y m 1 (by omega)]
    push_cast
    field_simp
    ring
  · simp only [List.map_cons, List.map_nil, List.sum_cons, List.sum_nil, add_zero]
    rw [abs_of_pos (div_pos hb' hS')]
    push_cast
    field_simp

/-- bf2: at most 31% more than the largest bar; from period 4 on, 12%. -/
theorem bf2_gain (o : Nat → R) (h : 1 ≤ o 0) (q : Nat) (h1 : 1 ≤ q) (h2 : q ≤ 20)
    (hc : toInt (o 0) = .ok ((2 * q : Nat) : Int)) (s : Nat) (hs : bf2Start o = .ok (s : Int)) :
    GainAtMost bf2Batch o (if q = 1 then 131 / 100 else 112 / 100) := by
  refine gainAtMost_of (s := s) (bf2_value o h q h1 h2 hc s hs) fun x B hB n => ?_
  have hb := rows (P := fun i => 0 < bf2B0.getD i 0 ∧ 0 < bf2B1.getD i 0 ∧ 0 < bf2B2.getD i 0) (by decide) q h1 h2
  have hk := rows (P := fun i => Gain.check 1000000 (bf2A1.getD i 0) (bf2A2.getD i 0) 0 0 ((if i = 0 then 131 else 112) * 1000000)
    (100 * (bf2B0.getD i 0 + bf2B1.getD i 0 + bf2B2.getD i 0)) 6 80 (bf2A1.getD i 0) (bf2A2.getD i 0) 0 0 1 1000000 = true)
    bf2_cert q h1 h2
  have hq : (if q = 1 then 131 / 100 else 112 / 100 : R) = ((if q - 1 = 0 then 131 else 112 : Int) : R) / 100 := by
    by_cases hq : q = 1
    · subst hq; norm_num
    · rw [if_neg hq, if_neg (by omega)]; norm_num
  rw [hq]
  have hg : 0 < (if q - 1 = 0 then 131 else 112 : Int) := by split <;> norm_num
  simp only [coef_cast]
  generalize (if q - 1 = 0 then 131 else 112 : Int) = g at *
  generalize bf2B0.getD (q - 1) 0 = b0 at *
  generalize bf2B1.getD (q - 1) 0 = b1 at *
  generalize bf2B2.getD (q - 1) 0 = b2 at *
  generalize bf2A1.getD (q - 1) 0 = a1 at *
  generalize bf2A2.getD (q - 1) 0 = a2 at *
  have hb0 : (0 : R) < b0 := by exact_mod_cast hb.1
  have hb1 : (0 : R) < b1 := by exact_mod_cast hb.2.1
  have hb2 : (0 : R) < b2 := by exact_mod_cast hb.2.2
  refine (iir_gain _ _ 1000000 _ _ _ _ _ _ 80 (by norm_num) (by omega) (by omega) 6 (by omega) hk (fun y m => ?_) x B hB n).trans (le_of_eq ?_)
  · rw [dot2, past_lead y m 0 (by omega), past_lead y m 1 (by omega)]
    push_cast
    field_simp
    ring
  · simp only [List.map_cons, List.map_nil, List.sum_cons, List.sum_nil, add_zero]
    rw [abs_of_pos (by positivity), abs_of_pos (by positivity), abs_of_pos (by positivity)]
    push_cast
    field_simp
    ring

/-- bf3: at most twice the largest bar; from period 4 on, 31% more. -/
theorem bf3_gain (o : Nat → R) (h : 1 ≤ o 0) (q : Nat) (h1 : 1 ≤ q) (h2 : q ≤ 20)
    (hc : toInt (o 0) = .ok ((2 * q : Nat) : Int)) (s : Nat) (hs : bf3Start o = .ok (s : Int)) :
    GainAtMost bf3Batch o (if q = 1 then 200 / 100 else 131 / 100) := by
  refine gainAtMost_of (s := s) (bf3_value o h q h1 h2 hc s hs) fun x B hB n => ?_
  have hb := rows (P := fun i => 0 < bf3B0.getD i 0 ∧ 0 < bf3B1.getD i 0 ∧ 0 < bf3B2.getD i 0 ∧ 0 < bf3B3.getD i 0) (by decide) q h1 h2
  have hk := rows (P := fun i => Gain.check 1000000 (bf3A1.getD i 0) (bf3A2.getD i 0) (bf3A3.getD i 0) 0 ((if i = 0 then 200 else 131) * 1000000)
    (100 * (bf3B0.getD i 0 + bf3B1.getD i 0 + bf3B2.getD i 0 + bf3B3.getD i 0)) 70 110
    (bf3A1.getD i 0) (bf3A2.getD i 0) (bf3A3.getD i 0) 0 1 1000000 = true)
    bf3_cert q h1 h2
  have hq : (if q = 1 then 200 / 100 else 131 / 100 : R) = ((if q - 1 = 0 then 200 else 131 : Int) : R) / 100 := by
    by_cases hq : q = 1
    · subst hq; norm_num
    · rw [if_neg hq, if_neg (by omega)]; norm_num
  rw [hq]
  have hg : 0 < (if q - 1 = 0 then 200 else 131 : Int) := by split <;> norm_num
  simp only [coef_cast]
  generalize (if q - 1 = 0 then 200 else 131 : Int) = g at *
  generalize bf3B0.getD (q - 1) 0 = b0 at *
  generalize bf3B1.getD (q - 1) 0 = b1 at *
  generalize bf3B2.getD (q - 1) 0 = b2 at *
  generalize bf3B3.getD (q - 1) 0 = b3 at *
  generalize bf3A1.getD (q - 1) 0 = a1 at *
  generalize bf3A2.getD (q - 1) 0 = a2 at *
  generalize bf3A3.getD (q - 1) 0 = a3 at *
  have hb0 : (0 : R) < b0 := by exact_mod_cast hb.1
  have hb1 : (0 : R) < b1 := by exact_mod_cast hb.2.1
  have hb2 : (0 : R) < b2 := by exact_mod_cast hb.2.2.1
  have hb3 : (0 : R) < b3 := by exact_mod_cast hb.2.2.2
  refine (iir_gain _ _ 1000000 _ _ _ _ _ _ 110 (by norm_num) (by omega) (by omega) 70 (by omega) hk (fun y m => ?_) x B hB n).trans (le_of_eq ?_)
  · rw [dot3, past_lead y m 0 (by omega), past_lead y m 1 (by omega), past_lead y m 2 (by omega)]
    push_cast
    field_simp
    ring
  · simp only [List.map_cons, List.map_nil, List.sum_cons, List.sum_nil, add_zero]
    rw [abs_of_pos (by positivity), abs_of_pos (by positivity), abs_of_pos (by positivity), abs_of_pos (by positivity)]
    push_cast
    field_simp
    ring

/-! ### gf4 -/

/-- The recursion of gf4 in integers. -/
theorem gf4_rec (q : Nat) (h1 : 1 ≤ q) (h2 : q ≤ 20) (x : Nat → R) (n : Nat) :
    ((gf4B0.getD (q - 1) 0 + gf4A1.getD (q - 1) 0 + gf4A2.getD (q - 1) 0 + gf4A3.getD (q - 1) 0 + gf4A4.getD (q - 1) 0 : Int) : R) * gf4Y q x (n + 4 + 1) =
      ((gf4A1.getD (q - 1) 0 : Int) : R) * gf4Y q x (n + 3 + 1) + ((gf4A2.getD (q - 1) 0 : Int) : R) * gf4Y q x (n + 2 + 1)
      + ((gf4A3.getD (q - 1) 0 : Int) : R) * gf4Y q x (n + 1 + 1) + ((gf4A4.getD (q - 1) 0 : Int) : R) * gf4Y q x (n + 1)
      + ((gf4B0.getD (q - 1) 0 : Int) : R) * x (n + 5) := by
  have hS := rows (P := fun i => 0 < gf4B0.getD i 0 + gf4A1.getD i 0 + gf4A2.getD i 0 + gf4A3.getD i 0 + gf4A4.getD i 0) (by decide) q h1 h2
  have hr := gf4Y_filt (R := R) q x n
  simp only [coef_cast] at hr
  generalize gf4B0.getD (q - 1) 0 = b0 at *
  generalize gf4A1.getD (q - 1) 0 = a1 at *
  generalize gf4A2.getD (q - 1) 0 = a2 at *
  generalize gf4A3.getD (q - 1) 0 = a3 at *
  generalize gf4A4.getD (q - 1) 0 = a4 at *
  have hS' : (0 : R) < (b0 : R) + a1 + a2 + a3 + a4 := by exact_mod_cast hS
  have e : (b0 : R) / 1000000 + a1 / 1000000 + a2 / 1000000 + a3 / 1000000 + a4 / 1000000 = (b0 + a1 + a2 + a3 + a4) / 1000000 := by ring
  rw [e] at hr
  rw [show n + 4 + 1 = n + 5 by omega, hr]
  push_cast
  field_simp
  ring

theorem gf4_sumPos (q : Nat) (h1 : 1 ≤ q) (h2 : q ≤ 20) :
    0 < gf4B0.getD (q - 1) 0 + gf4A1.getD (q - 1) 0 + gf4A2.getD (q - 1) 0 + gf4A3.getD (q - 1) 0 + gf4A4.getD (q - 1) 0 ∧ 0 < gf4B0.getD (q - 1) 0 :=
  rows (P := fun i => 0 < gf4B0.getD i 0 + gf4A1.getD i 0 + gf4A2.getD i 0 + gf4A3.getD i 0 + gf4A4.getD i 0 ∧ 0 < gf4B0.getD i 0) (by decide) q h1 h2

theorem gf4Y_gain (q : Nat) (h1 : 1 ≤ q) (h2 : q ≤ 15) (x : Nat → R) (B : R) (hB : ∀ n, |x n| ≤ B) (n : Nat) : |gf4Y q x n| ≤ 11 * B := by
  have hB0 : 0 ≤ B := (abs_nonneg _).trans (hB 0)
  by_cases hn : n < 5
  · rw [gf4Y_copy q x n hn]
    exact (hB n).trans (by linarith)
  obtain ⟨hS, hb⟩ := gf4_sumPos q h1 (by omega)
  have hk := rows (P := fun i => i < 15 → Gain.check (gf4B0.getD i 0 + gf4A1.getD i 0 + gf4A2.getD i 0 + gf4A3.getD i 0 + gf4A4.getD i 0)
    (gf4A1.getD i 0) (gf4A2.getD i 0) (gf4A3.getD i 0) (gf4A4.getD i 0)
    (4 * (gf4B0.getD i 0 + gf4A1.getD i 0 + gf4A2.getD i 0 + gf4A3.getD i 0 + gf4A4.getD i 0)) (gf4B0.getD i 0) 7 225
    (gf4A1.getD i 0) (gf4A2.getD i 0) (gf4A3.getD i 0) (gf4A4.getD i 0) 1
    (gf4B0.getD i 0 + gf4A1.getD i 0 + gf4A2.getD i 0 + gf4A3.getD i 0 + gf4A4.getD i 0) = true) gf4_cert q h1 (by omega) (by omega)
  have hr := gf4_rec (R := R) q h1 (by omega) x
  generalize gf4B0.getD (q - 1) 0 = b0 at *
  generalize gf4A1.getD (q - 1) 0 = a1 at *
  generalize gf4A2.getD (q - 1) 0 = a2 at *
  generalize gf4A3.getD (q - 1) 0 = a3 at *
  generalize gf4A4.getD (q - 1) 0 = a4 at *
  generalize hSe : b0 + a1 + a2 + a3 + a4 = S at *
  have hb' : (0 : R) < b0 := by exact_mod_cast hb
  have hS' : (0 : R) < S := by exact_mod_cast hS
  have h := Gain.bounded (R := R) (z := fun n => gf4Y q x (n + 1)) (u := fun n => b0 / S * x (n + 5)) (U := b0 / S * B) (Z := B)
    225 hS hb (by omega) (by omega) hk (fun m => ?_) (fun m => ?_) (fun m hm => ?_) (n - 1)
  · rw [show n - 1 + 1 = n by omega] at h
    refine h.trans (le_of_eq ?_)
    push_cast
    field_simp
    norm_num
  · rw [hr m]
    field_simp
  · rw [abs_mul, abs_of_pos (div_pos hb' hS')]
    exact mul_le_mul_of_nonneg_left (hB _) (div_pos hb' hS').le
  · show |gf4Y q x (m + 1)| ≤ B
    rw [gf4Y_copy q x (m + 1) (by omega)]
    exact hB _

/-- gf4, periods 2 to 30: never more than eleven times the largest bar. Partial: not for the periods above. -/
theorem gf4_gain_partial (o : Nat → R) (q : Nat) (h1 : 1 ≤ q) (h2 : q ≤ 15) (hc : toInt (o 0) = .ok ((2 * q : Nat) : Int)) :
    StreamGainAtMost gf4 o 11 := by
  intro B chunks hB r p ys hr v hv
  have e : chunks.flatten = pre (fun n => chunks.flatten.getD n 0) chunks.flatten.length := eq_pre_getD _
  have := gf4_stream_run o q h1 (by omega) hc _ _ chunks e
  rw [hr] at this
  cases this
  simp only [pre, List.mem_map, List.mem_range] at hv
  obtain ⟨j, hj, rfl⟩ := hv
  have hB0 : 0 ≤ B := by
    have h0 : 0 < chunks.flatten.length := by omega
    exact (abs_nonneg _).trans (hB chunks.flatten[0] (List.getElem_mem h0))
  refine gf4Y_gain q h1 h2 _ B (fun n => ?_) _
  by_cases hn : n < chunks.flatten.length
  · simp only [List.getD_eq_getElem?_getD, List.getElem?_eq_getElem hn, Option.getD_some]; exact hB _ (List.getElem_mem hn)
  · simp only [List.getD_eq_getElem?_getD, List.getElem?_eq_none (Nat.le_of_not_lt hn), Option.getD_none, abs_zero]; exact hB0

/-- gf4, periods 32 to 40: prices between 1 and 3 that stop moving after five bars send the output beyond every limit. -/
theorem gf4_gain_violates [Archimedean R] (o : Nat → R) (q : Nat) (h1 : 16 ≤ q) (h2 : q ≤ 20) (hc : toInt (o 0) = .ok ((2 * q : Nat) : Int)) :
    Diverges gf4Batch o := by
  let x : Nat → R := fun n => if n = 1 ∨ n = 4 then 1 else if n = 2 ∨ n = 3 then 3 else 2
  refine ⟨x, fun n => ?_, fun n hn => ?_, fun C => ?_⟩
  · show 1 ≤ (if _ then _ else _ : R) ∧ (if _ then _ else _ : R) ≤ 3
    split_ifs <;> norm_num
  · show (if _ then _ else _ : R) = 2
    rw [if_neg (by omega), if_neg (by omega)]
  obtain ⟨hS, hb⟩ := gf4_sumPos q (by omega) h2
  obtain ⟨hk, hv⟩ := rows (P := fun i => 15 ≤ i → (gf4Form i).grows
    (gf4B0.getD i 0 + gf4A1.getD i 0 + gf4A2.getD i 0 + gf4A3.getD i 0 + gf4A4.getD i 0)
    (gf4A1.getD i 0) (gf4A2.getD i 0) (gf4A3.getD i 0) (gf4A4.getD i 0) 102 100 = true ∧
    0 < (gf4Form i).p11 - 2 * (gf4Form i).p12 - 2 * (gf4Form i).p13 + 2 * (gf4Form i).p14 + (gf4Form i).p22
      + 2 * (gf4Form i).p23 - 2 * (gf4Form i).p24 + (gf4Form i).p33 - 2 * (gf4Form i).p34 + (gf4Form i).p44) gf4_growth q (by omega) h2 (by omega)
  have hr := gf4_rec (R := R) q (by omega) h2 x
  have hx : ∀ m, x (m + 5) = 2 := fun m => by
    show (if _ then _ else _ : R) = 2
    rw [if_neg (by omega), if_neg (by omega)]
  have hz := Gain.Form.diverges (R := R) (gf4Form (q - 1)) (z := fun n => gf4Y q x (n + 1) - 2) hS (by norm_num) (by norm_num) hk (fun m => ?_) ?_ (|C| + 2)
  · obtain ⟨n, hn⟩ := hz
    refine ⟨n + 6, _, gf4_run o q (by omega) h2 hc x (n + 6) (by omega), gf4Y q x (n + 1), ?_, ?_⟩
    · simp only [pre, List.mem_map, List.mem_range]
      exact ⟨n + 1, by omega, rfl⟩
    · have := abs_sub (gf4Y q x (n + 1)) 2
      rw [abs_of_pos (by norm_num : (0 : R) < 2)] at this
      have hC := le_abs_self C
      linarith
  · have := hr m
    rw [hx m] at this
    push_cast at this ⊢
    linear_combination this
  · have c1 : gf4Y q x 1 = 1 := by rw [gf4Y_copy q x 1 (by omega)]; show (if _ then _ else _ : R) = 1; rw [if_pos (by omega)]
    have c2 : gf4Y q x 2 = 3 := by rw [gf4Y_copy q x 2 (by omega)]; show (if _ then _ else _ : R) = 3; rw [if_neg (by omega), if_pos (by omega)]
    have c3 : gf4Y q x 3 = 3 := by rw [gf4Y_copy q x 3 (by omega)]; show (if _ then _ else _ : R) = 3; rw [if_neg (by omega), if_pos (by omega)]
    have c4 : gf4Y q x 4 = 1 := by rw [gf4Y_copy q x 4 (by omega)]; show (if _ then _ else _ : R) = 1; rw [if_pos (by omega)]
    have hv' : (0 : R) < (((gf4Form (q - 1)).p11 - 2 * (gf4Form (q - 1)).p12 - 2 * (gf4Form (q - 1)).p13 + 2 * (gf4Form (q - 1)).p14
      + (gf4Form (q - 1)).p22 + 2 * (gf4Form (q - 1)).p23 - 2 * (gf4Form (q - 1)).p24 + (gf4Form (q - 1)).p33 - 2 * (gf4Form (q - 1)).p34
      + (gf4Form (q - 1)).p44 : Int) : R) := by exact_mod_cast hv
    push_cast at hv'
    simp only [Gain.Form.val, Nat.reduceAdd, c1, c2, c3, c4]
    norm_num
    linarith

/-! ### rmta -/

theorem one1 : (c! 1 : R) = 1 := by norm_num

theorem rmta_states (beta : R) (h0 : 0 ≤ beta) (h1 : beta ≤ 1) (off : Nat) (x : Nat → R) (B : R) (hB : ∀ n, |x n| ≤ B) (n : Nat) :
    |(1 - beta) * (rmtaSt beta off x n).1| ≤ B ∧ |(rmtaSt beta off x n).2| ≤ 3 * B := by
  have hB0 : 0 ≤ B := (abs_nonneg _).trans (hB 0)
  induction n with
  | zero =>
    have hx := abs_le.1 (hB 0)
    have hs : beta ^ 2 ≤ 1 := by nlinarith
    constructor
    · have e : (1 - beta) * (rmtaSt beta off x 0).1 = (1 - beta ^ 2) * x 0 := by simp only [rmtaSt, one1]; ring
      rw [e, abs_mul, abs_of_nonneg (by linarith)]
      have := mul_le_mul (by nlinarith : 1 - beta ^ 2 ≤ 1) (hB 0) (abs_nonneg _) zero_le_one
      linarith
    · have e : (rmtaSt beta off x 0).2 = (2 - beta ^ 2) * x 0 := by simp only [rmtaSt, one1]; ring
      rw [e, abs_mul, abs_of_nonneg (by linarith)]
      have := mul_le_mul (by nlinarith : 2 - beta ^ 2 ≤ 2) (hB 0) (abs_nonneg _) (by norm_num)
      linarith
  | succ n ih =>
    have e1 : (rmtaSt beta off x (n + 1)).1 = beta * (rmtaSt beta off x n).1 + x (off + n) := by simp only [rmtaSt, one1]; ring
    have e2 : (rmtaSt beta off x (n + 1)).2 = beta * (rmtaSt beta off x n).2
        + (1 - beta) * (2 * x (off + n) - (1 - beta) * (rmtaSt beta off x n).1) := by simp only [rmtaSt, one1]; ring
    rw [e1, e2]
    generalize (rmtaSt beta off x n).1 = b at *
    generalize (rmtaSt beta off x n).2 = r at *
    have hx := abs_le.1 (hB (off + n))
    generalize x (off + n) = v at *
    have hb := abs_le.1 ih.1
    have hr := abs_le.1 ih.2
    have k0 : 0 ≤ 1 - beta := by linarith
    have m1 := mul_le_mul_of_nonneg_left hb.1 h0
    have m2 := mul_le_mul_of_nonneg_left hb.2 h0
    have m3 := mul_le_mul_of_nonneg_left hx.1 k0
    have m4 := mul_le_mul_of_nonneg_left hx.2 k0
    have m5 := mul_le_mul_of_nonneg_left hr.1 h0
    have m6 := mul_le_mul_of_nonneg_left hr.2 h0
    have m7 := mul_le_mul_of_nonneg_left hb.1 k0
    have m8 := mul_le_mul_of_nonneg_left hb.2 k0
    constructor
    · rw [abs_le]; constructor <;> linarith
    · rw [abs_le]; constructor <;> linarith

/-- rmta with a `beta` between 0 and 1. Partial: not outside. -/
theorem rmta_gain_partial (o : Nat → R) (p : Nat) (hc : toInt (o 0) = .ok (p : Int)) (hp : 1 ≤ p) (h0 : 0 ≤ o 1) (h1 : o 1 ≤ 1) :
    GainAtMost rmtaBatch o 3 := by
  refine gainAtMost_of (s := p - 1) (y := fun x n => (rmtaSt (o 1) (if p = 1 then 0 else 1) x (n + 1 - (if p = 1 then 0 else 1))).2) ?_
    fun x B hB n => (rmta_states (o 1) h0 h1 _ x B hB _).2
  have := rmta_run o p hc hp
  have e : (fun (x : Nat → R) j => (rmtaSt (o 1) (if p = 1 then 0 else 1) x (j + (p - 1) + 1 - (if p = 1 then 0 else 1))).2) =
      fun x j => (rmtaSt (o 1) (if p = 1 then 0 else 1) x (j + p - (if p = 1 then 0 else 1))).2 := by
    funext x j; rw [show j + (p - 1) + 1 = j + p by omega]
  rw [e]; exact this

/-- rmta takes any `beta`; above 1 even a price that never moves sends the output beyond every limit. -/
theorem rmta_gain_violates [Archimedean R] (o : Nat → R) (p : Nat) (hc : toInt (o 0) = .ok (p : Int)) (hp : 1 ≤ p) (h : 1 < o 1) :
    Diverges rmtaBatch o := by
  refine ⟨fun _ => 2, fun n => by norm_num, fun _ _ => rfl, fun C => ?_⟩
  have hv := rmta_run o p hc hp (fun _ => 2)
  obtain ⟨off, hoff, ho⟩ : ∃ off, off = (if p = 1 then 0 else 1) ∧ off ≤ p := ⟨_, rfl, by split <;> omega⟩
  rw [← hoff] at hv
  generalize o 1 = g at *
  have key : ∀ n, 0 ≤ (g - 1) * (rmtaSt g off (fun _ => (2 : R)) n).1 + 2 ∧
      (rmtaSt g off (fun _ => (2 : R)) n).2 ≤ 2 - 2 * (g ^ 2 - 1) * g ^ n := by
    intro n
    induction n with
    | zero => simp only [rmtaSt]; norm_num; constructor <;> nlinarith
    | succ n ih =>
      have e1 : (rmtaSt g off (fun _ => (2 : R)) (n + 1)).1 = g * (rmtaSt g off (fun _ => (2 : R)) n).1 + 2 := by simp only [rmtaSt, one1]; ring
      have e2 : (rmtaSt g off (fun _ => (2 : R)) (n + 1)).2 = g * (rmtaSt g off (fun _ => (2 : R)) n).2
        + (1 - g) * (2 * 2 - (1 - g) * (rmtaSt g off (fun _ => (2 : R)) n).1) := by simp only [rmtaSt, one1]; ring
      rw [e1, e2]
      generalize (rmtaSt g off (fun _ => (2 : R)) n).1 = b at *
      generalize (rmtaSt g off (fun _ => (2 : R)) n).2 = r at *
      constructor
      · nlinarith [mul_nonneg (by linarith : 0 ≤ g) ih.1]
      · have m1 := mul_le_mul_of_nonneg_left ih.2 (by linarith : 0 ≤ g)
        have m2 := mul_nonneg (by linarith : 0 ≤ g - 1) ih.1
        have e : 2 - 2 * (g ^ 2 - 1) * g ^ (n + 1) = g * (2 - 2 * (g ^ 2 - 1) * g ^ n) - 2 * (g - 1) := by rw [pow_succ]; ring
        rw [e]
        linarith
  obtain ⟨k, hk⟩ := pow_unbounded_of_one_lt ((|C| + 2) / (2 * (g ^ 2 - 1))) h
  have hg : 0 < 2 * (g ^ 2 - 1) := by nlinarith
  rw [div_lt_iff₀ hg] at hk
  have hm : g ^ k ≤ g ^ (k + p - off) := pow_le_pow_right₀ h.le (by omega)
  refine ⟨k + p, _, hv (k + p), (rmtaSt g off (fun _ => (2 : R)) (k + p - off)).2, ?_, ?_⟩
  · simp only [pre, List.mem_map, List.mem_range]
    exact ⟨k, by omega, rfl⟩
  · have := (key (k + p - off)).2
    have h3 := mul_le_mul_of_nonneg_left hm hg.le
    have := neg_le_abs (rmtaSt g off (fun _ => (2 : R)) (k + p - off)).2
    have := le_abs_self C
    linarith

/-! ### Streams -/

theorem gf1_stream_gain (o : Nat → R) (q : Nat) (h1 : 1 ≤ q) (h2 : q ≤ 20) (hc : toInt (o 0) = .ok ((2 * q : Nat) : Int)) :
    StreamGainAtMost gf1 o 1 := streamGain_of (gf1_gain o q h1 h2 hc) (gf1_stream_eq_batch_partial o q h1 h2 hc)
theorem gf2_stream_gain (o : Nat → R) (q : Nat) (h1 : 1 ≤ q) (h2 : q ≤ 20) (hc : toInt (o 0) = .ok ((2 * q : Nat) : Int)) :
    StreamGainAtMost gf2 o (101 / 100) := streamGain_of (gf2_gain o q h1 h2 hc) (gf2_stream_eq_batch o q h1 h2 hc)
theorem gf3_stream_gain (o : Nat → R) (q : Nat) (h1 : 1 ≤ q) (h2 : q ≤ 20) (hc : toInt (o 0) = .ok ((2 * q : Nat) : Int)) :
    StreamGainAtMost gf3 o 1 := streamGain_of (gf3_gain o q h1 h2 hc) (gf3_stream_eq_batch o q h1 h2 hc)
theorem bf2_stream_gain (o : Nat → R) (h : 1 ≤ o 0) (q : Nat) (h1 : 1 ≤ q) (h2 : q ≤ 20)
    (hc : toInt (o 0) = .ok ((2 * q : Nat) : Int)) (s : Nat) (hs : bf2Start o = .ok (s : Int)) :
    StreamGainAtMost bf2 o (if q = 1 then 131 / 100 else 112 / 100) :=
  streamGain_of (bf2_gain o h q h1 h2 hc s hs) (bf2_stream_eq_batch o (by simpa using h) q h1 h2 hc s hs)
theorem bf3_stream_gain (o : Nat → R) (h : 1 ≤ o 0) (q : Nat) (h1 : 1 ≤ q) (h2 : q ≤ 20)
    (hc : toInt (o 0) = .ok ((2 * q : Nat) : Int)) (s : Nat) (hs : bf3Start o = .ok (s : Int)) :
    StreamGainAtMost bf3 o (if q = 1 then 200 / 100 else 131 / 100) :=
  streamGain_of (bf3_gain o h q h1 h2 hc s hs) (bf3_stream_eq_batch o (by simpa using h) q h1 h2 hc s hs)
theorem lf_stream_gain_partial (o : Nat → R) (h0 : 0 ≤ o 0) (h1 : o 0 ≤ 1) :
    StreamGainAtMost lf o ((1 + 2 * (1 + 2 * o 0) + 2 * (1 + 2 * o 0) ^ 2 + (1 + 2 * o 0) ^ 3) / 6) :=
  streamGain_of (lf_gain_partial o h0 h1) (lf_stream_eq_batch o (by simpa using h0))

end

/-- The hypotheses are met, and the outputs are not all zero. -/
example : GainAtMost gf2Batch (opts [10] : Nat → Rat) (101 / 100) := gf2_gain _ 5 (by omega) (by omega) (by decide +kernel)
example : ∃ s : Nat, GainAtMost bf3Batch (opts [10] : Nat → Rat) (if 5 = 1 then 200 / 100 else 131 / 100) ∧ bf3Start (opts [10] : Nat → Rat) = .ok (s : Int) :=
  ⟨4, bf3_gain _ (by decide +kernel) 5 (by omega) (by omega) (by decide +kernel) 4 (by decide +kernel), by decide +kernel⟩
example : StreamGainAtMost gf4 (opts [30] : Nat → Rat) 11 := gf4_gain_partial _ 15 (by omega) (by omega) (by decide +kernel)
example : Diverges gf4Batch (opts [32] : Nat → Rat) := gf4_gain_violates _ 16 (by omega) (by omega) (by decide +kernel)
example : Diverges lfBatch (opts [11 / 10] : Nat → Rat) := lf_gain_violates _ (by decide +kernel)
example : GainAtMost rmtaBatch (opts [5, 9 / 10] : Nat → Rat) 3 :=
  rmta_gain_partial _ 5 (by decide +kernel) (by omega) (by decide +kernel) (by decide +kernel)
example : Diverges rmtaBatch (opts [5, 11 / 10] : Nat → Rat) := rmta_gain_violates _ 5 (by decide +kernel) (by omega) (by decide +kernel)
example : lfBatch (opts [2] : Nat → Rat) [1, 1, 1, 1, 1] = .ok (.okay, [1 / 2, 9 / 2, 49 / 2, 105, 389]) := by decide +kernel

end Verif
