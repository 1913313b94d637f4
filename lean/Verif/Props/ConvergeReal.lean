/- C76, continued: the filters whose coefficients need real numbers, and mgdyn. -/
import Verif.Props.Converge
import Verif.Props.Cutoff

namespace Verif
open Spec
open Converge (Tends follows approaches)

theorem iir2_rec (b0 b1 a1 a2 : ℝ) (x : Nat → ℝ) (n : Nat) : iir [b0, b1] [a1, a2] x (n + 2) =
    a1 * iir [b0, b1] [a1, a2] x (n + 1) + a2 * iir [b0, b1] [a1, a2] x n + (b0 * x (n + 2) + b1 * x (n + 1)) := by
  rw [iir_unfold]
  simp only [dot2, past_getD, show 0 + 1 ≤ n + 2 + 1 by omega, show 1 + 1 ≤ n + 2 + 1 by omega, show 0 + 1 ≤ n + 2 by omega, show 1 + 1 ≤ n + 2 by omega, if_true,
    show n + 2 + 1 - (0 + 1) = n + 2 by omega, show n + 2 + 1 - (1 + 1) = n + 1 by omega, show n + 2 - (0 + 1) = n + 1 by omega, show n + 2 - (1 + 1) = n by omega]
  ring
theorem iir3_rec (b0 b1 b2 a1 a2 : ℝ) (x : Nat → ℝ) (n : Nat) : iir [b0, b1, b2] [a1, a2] x (n + 2) =
    a1 * iir [b0, b1, b2] [a1, a2] x (n + 1) + a2 * iir [b0, b1, b2] [a1, a2] x n + (b0 * x (n + 2) + b1 * x (n + 1) + b2 * x n) := by
  rw [iir_unfold]
  simp only [dot2, dot3, past_getD, show 0 + 1 ≤ n + 2 + 1 by omega, show 1 + 1 ≤ n + 2 + 1 by omega, show 2 + 1 ≤ n + 2 + 1 by omega,
    show 0 + 1 ≤ n + 2 by omega, show 1 + 1 ≤ n + 2 by omega, if_true,
    show n + 2 + 1 - (0 + 1) = n + 2 by omega, show n + 2 + 1 - (1 + 1) = n + 1 by omega, show n + 2 + 1 - (2 + 1) = n by omega,
    show n + 2 - (0 + 1) = n + 1 by omega, show n + 2 - (1 + 1) = n by omega]
  ring

theorem ss_tends {x : Nat → ℝ} {c : ℝ} (hx : Tends x c) : Tends (iir [ssC1 / 2, ssC1 / 2] [ssC2, ssC3] x) c := by
  obtain ⟨k1, k2⟩ := ss_coefs
  rw [abs_le] at k1 k2
  have hc1 : (ssC1 : ℝ) = 1 - ssC2 - ssC3 := by unfold ssC1; norm_num
  have := Converge.second (z := iir [ssC1 / 2, ssC1 / 2] [ssC2, ssC3] x) (p := ssC2) (q := -ssC3) (by linarith [k2.1]) (abs_lt.2 ⟨by linarith [k1.1, k2.2], by linarith [k1.2, k2.2]⟩)
    (fun n => by rw [iir2_rec]; ring) (((hx.shift 2).mul_const (ssC1 / 2)).add ((hx.shift 1).mul_const (ssC1 / 2)))
  have e : 1 - ssC2 + -ssC3 ≠ (0 : ℝ) := by intro h; linarith [k1.2, k2.2]
  rwa [show ssC1 / 2 * c + ssC1 / 2 * c = (1 - ssC2 + -ssC3) * c by rw [hc1]; ring, mul_div_cancel_left₀ _ e] at this

theorem ssmooth_follows (o : Nat → ℝ) : Follows ssmoothBatch o 0 1 :=
  follows (ssmooth_value o) fun x c hx => by rw [one_mul]; exact ss_tends (.of_rests hx)

theorem roof_alpha : 0 < (roofAlpha : ℝ) ∧ (roofAlpha : ℝ) < 2 := by
  obtain ⟨w, hw, w0, w1⟩ : ∃ w : ℝ, w = roofAngle ∧ 0 < w ∧ w < 1 := ⟨_, rfl, by unfold roofAngle; norm_num, by unfold roofAngle; norm_num⟩
  have hc : 0 < Real.cos w := Real.cos_pos_of_le_one (by rw [abs_of_pos w0]; exact w1.le)
  have hs : 0 < Real.sin w := Real.sin_pos_of_pos_of_le_one w0 w1.le
  have h1 := Real.sin_sq_add_cos_sq w
  have h2 := Real.sin_le_one w
  have e : (roofAlpha : ℝ) = (Real.cos w + Real.sin w - 1) / Real.cos w := by
    unfold roofAlpha; rw [← hw]; push_cast; rfl
  rw [e]
  refine ⟨div_pos ?_ hc, by rw [div_lt_iff₀ hc]; linarith⟩
  nlinarith [mul_pos hc hs]

/-- roof takes out the level: it approaches 0. -/
theorem roof_rests (o : Nat → ℝ) : Follows roofBatch o 0 0 :=
  follows (roof_value o) fun x c hx => by
    rw [zero_mul]
    refine ss_tends ?_
    obtain ⟨a0, a2⟩ := roof_alpha
    have hr : |1 - (roofAlpha : ℝ)| < 1 := abs_lt.2 ⟨by linarith, by linarith⟩
    obtain ⟨r, hr'⟩ : ∃ r, r = 1 - (roofAlpha : ℝ) := ⟨_, rfl⟩
    obtain ⟨k, hk⟩ : ∃ k, k = (1 - (roofAlpha : ℝ) / 2) ^ 2 := ⟨_, rfl⟩
    rw [← hr'] at hr ⊢
    rw [← hk]
    have hr2 := abs_lt.1 hr
    have t := Tends.of_rests hx
    have := Converge.second (z := iir [k, -2 * k, k] [2 * r, -r ^ 2] x) (p := 2 * r) (q := r ^ 2) (by nlinarith) (abs_lt.2 ⟨by nlinarith, by nlinarith⟩)
      (fun n => by rw [iir3_rec]; ring) ((((t.shift 2).mul_const k).add ((t.shift 1).mul_const (-2 * k))).add (t.mul_const k))
    rwa [show k * c + -2 * k * c + k * c = 0 by ring, zero_div] at this

theorem rema_follows (o : Nat → ℝ) (h1 : 1 ≤ o 0) (h2 : 0 ≤ o 1) : Follows remaBatch o 0 1 := by
  obtain ⟨y, hc, hy⟩ := rema_value o h1 h2
  refine follows hc fun x c hx => ?_
  obtain ⟨a, ha⟩ : ∃ a, a = 2 / (1 + o 0) := ⟨_, rfl⟩
  have a0 : 0 < a := by rw [ha]; positivity
  have a1 : a ≤ 1 := by rw [ha, div_le_one (by linarith)]; linarith
  have hl : 0 < 1 + o 1 := by linarith
  obtain ⟨-, -, hr⟩ := hy x
  rw [← ha] at hr
  have := Converge.second (z := y x) (p := (1 - a + 2 * o 1) / (1 + o 1)) (q := o 1 / (1 + o 1)) (v := fun n => a / (1 + o 1) * x (n + 2))
    (by rw [div_lt_one hl]; linarith)
    (by rw [abs_div, abs_of_pos hl, abs_of_nonneg (by linarith), div_lt_iff₀ hl, add_mul, div_mul_cancel₀ _ hl.ne']; linarith)
    (fun n => by rw [hr n]; field_simp; ring) (((Tends.of_rests hx).shift 2).mul_const _)
  rwa [show 1 - (1 - a + 2 * o 1) / (1 + o 1) + o 1 / (1 + o 1) = a / (1 + o 1) by field_simp; ring, mul_div_cancel_left₀ _ (by positivity), ← one_mul c] at this

/-! ### mgdyn -/

theorem mg_move (k y c : ℝ) (hk : 0 < k) (hc : c ≠ 0) (hy : y ≠ 0) : y + (c - y) / (k * CMath.pow (c / y) 4) - c = (1 - y ^ 4 / (k * c ^ 4)) * (y - c) := by
  have e : CMath.pow (c / y) 4 = (c / y) ^ 4 := by
    show (c / y) ^ (4 : ℝ) = _
    exact_mod_cast Real.rpow_natCast (c / y) 4
  rw [e]
  field_simp
  ring

/-- mgdyn approaches a positive price if, when the price stops moving, the last output is positive and its fourth power is at most the
option times that of the price. Partial: an output that is too far above the price runs away (`mgdyn_follows_violates`). -/
theorem mgdyn_follows_partial (o : Nat → ℝ) (h : 1 ≤ o 0) (x : Nat → ℝ) (c : ℝ) (hc : 0 < c) (m : Nat) (hx : ∀ i, m ≤ i → x i = c)
    (ys : List ℝ) (hr : mgdynBatch o (pre x (m + 1)) = .ok (.okay, ys)) (v : ℝ) (hv : ys[m]? = some v) (v0 : 0 < v) (v1 : v ^ 4 ≤ o 0 * c ^ 4) :
    Approaches mgdynBatch o 0 x id c := by
  obtain ⟨y, hcomp, hy⟩ := mgdyn_value o
  obtain ⟨-, hs⟩ := hy x
  have hm : y x m = v := by
    rw [hcomp x (m + 1)] at hr
    cases hr
    simpa [pre] using hv
  refine approaches 0 (fun N _ => hcomp x N) ?_
  have k0 : 0 < o 0 := by linarith
  have hkc : 0 < o 0 * c ^ 4 := by positivity
  obtain ⟨l, hl⟩ : ∃ l, l = min v c := ⟨_, rfl⟩
  obtain ⟨u, hu⟩ : ∃ u, u = max v c := ⟨_, rfl⟩
  have l0 : 0 < l := hl ▸ lt_min v0 hc
  have lc : l ≤ c := hl ▸ min_le_right _ _
  have cu : c ≤ u := hu ▸ le_max_right _ _
  have u4 : u ^ 4 ≤ o 0 * c ^ 4 := by
    rw [hu]
    rcases le_total v c with e | e
    · rw [max_eq_right e]; have := pow_pos hc 4; nlinarith
    · rw [max_eq_left e]; exact v1
  have w : ∀ z, l ≤ z → z ≤ u → l ^ 4 / (o 0 * c ^ 4) ≤ z ^ 4 / (o 0 * c ^ 4) ∧ z ^ 4 / (o 0 * c ^ 4) ≤ 1 := by
    intro z h1 h2
    have z0 : 0 < z := by linarith
    refine ⟨by gcongr, (div_le_one hkc).2 (le_trans ?_ u4)⟩
    gcongr
  have inv : ∀ i, l ≤ y x (m + i) ∧ y x (m + i) ≤ u := by
    intro i
    induction i with
    | zero => rw [Nat.add_zero, hm, hl, hu]; exact ⟨min_le_left _ _, le_max_left _ _⟩
    | succ i ih =>
      obtain ⟨w0, w1⟩ := w _ ih.1 ih.2
      have e := hs (m + i)
      rw [hx _ (by omega)] at e
      have e2 := mg_move (o 0) (y x (m + i)) c k0 hc.ne' (by linarith [ih.1])
      rw [← e] at e2
      have w0' : 0 ≤ y x (m + i) ^ 4 / (o 0 * c ^ 4) := le_trans (by positivity) w0
      rw [show m + (i + 1) = m + i + 1 by omega]
      generalize y x (m + i) ^ 4 / (o 0 * c ^ 4) = t at *
      generalize y x (m + i + 1) = b at *
      generalize y x (m + i) = a at *
      have eb : b = (1 - t) * a + t * c := by linarith
      rw [eb]
      constructor
      · nlinarith [mul_nonneg (sub_nonneg.2 w1) (sub_nonneg.2 ih.1), mul_nonneg w0' (sub_nonneg.2 lc)]
      · nlinarith [mul_nonneg (sub_nonneg.2 w1) (sub_nonneg.2 ih.2), mul_nonneg w0' (sub_nonneg.2 cu)]
  have hlk : l ^ 4 / (o 0 * c ^ 4) ≤ 1 := (w l le_rfl (by linarith)).2
  have : Tends (fun n => y x n - c) 0 := by
    have lp : 0 < l ^ 4 / (o 0 * c ^ 4) := by positivity
    refine Converge.contract (w := fun _ => 0) (q := 1 - l ^ 4 / (o 0 * c ^ 4)) (by linarith) (by linarith) m (fun n hn => ?_) (.const 0)
    have hi := inv (n - m)
    rw [show m + (n - m) = n by omega] at hi
    obtain ⟨w0, w1⟩ := w _ hi.1 hi.2
    rw [hs n, hx _ (by omega), mg_move _ _ _ k0 hc.ne' (by linarith [hi.1]), abs_zero, add_zero, abs_mul, abs_of_nonneg (by linarith)]
    exact mul_le_mul_of_nonneg_right (by linarith) (abs_nonneg _)
  have := this.add (.const c)
  simp only [sub_add_cancel, zero_add] at this
  exact this

/-- For every option there is a fall of the price after which mgdyn runs away although the price rests: to 1 from any `K ≥ 3` with
`K⁴ ≥ 4·option`. With option 14, a fall to a third will do. -/
theorem mgdyn_follows_violates (o : Nat → ℝ) (h : 0 < o 0) (K : ℝ) (hK : 3 ≤ K) (hK4 : 4 * o 0 ≤ K ^ 4) :
    Escapes mgdynBatch o 0 (fun n => if n = 0 then K else 1) := by
  obtain ⟨y, hcomp, hy⟩ := mgdyn_value o
  obtain ⟨x, hx⟩ : ∃ x : Nat → ℝ, x = fun n => if n = 0 then K else 1 := ⟨_, rfl⟩
  obtain ⟨h0, hs⟩ := hy x
  have inv : ∀ n, K ≤ |y x n| ∧ (K - 1) * 3 ^ n ≤ |y x n - 1| := by
    intro n
    induction n with
    | zero =>
      rw [h0, hx]; simp only [if_true, pow_zero, mul_one]
      exact ⟨le_abs_self _, le_abs_self _⟩
    | succ n ih =>
      have hy0 : y x n ≠ 0 := fun e => by rw [e, abs_zero] at ih; linarith [ih.1]
      have e := hs n
      rw [show x (n + 1) = 1 by rw [hx]; simp] at e
      have e2 := mg_move (o 0) (y x n) 1 h one_ne_zero hy0
      rw [← e, one_pow, mul_one] at e2
      have p4 : 4 ≤ y x n ^ 4 / o 0 := by
        rw [le_div_iff₀ h]
        refine hK4.trans ?_
        have := pow_le_pow_left₀ (by linarith) ih.1 4
        rwa [pow_abs, abs_of_nonneg (by positivity)] at this
      have a3 : 3 ≤ |1 - y x n ^ 4 / o 0| := by rw [abs_sub_comm]; refine le_trans ?_ (le_abs_self _); linarith
      have big : 3 * |y x n - 1| ≤ |y x (n + 1) - 1| := by
        rw [e2, abs_mul]; exact mul_le_mul_of_nonneg_right a3 (abs_nonneg _)
      have h3 : (1 : ℝ) ≤ 3 ^ n := one_le_pow₀ (by norm_num)
      have h4 : K - 1 ≤ (K - 1) * 3 ^ n := le_mul_of_one_le_right (by linarith) h3
      have tri : |y x (n + 1) - 1| ≤ |y x (n + 1)| + 1 := by simpa using abs_sub (y x (n + 1)) 1
      refine ⟨by linarith [ih.2], ?_⟩
      rw [pow_succ]
      linarith [ih.2]
  intro C
  obtain ⟨n0, hn0⟩ := pow_unbounded_of_one_lt (C + 1) (by norm_num : (1 : ℝ) < 3)
  refine ⟨n0, fun N => ⟨_, hcomp _ N, by simp [pre], fun j v hj hv => ?_⟩⟩
  simp only [pre, List.getElem?_map, Option.map_eq_some_iff] at hv
  obtain ⟨i, hi, rfl⟩ := hv
  obtain ⟨_, e⟩ := List.getElem?_eq_some_iff.1 hi
  have : i = j := by simpa using e.symm
  subst this
  rw [← hx]
  have h1 := (inv i).2
  have h2 : (3 : ℝ) ^ n0 ≤ 3 ^ i := pow_le_pow_right₀ (by norm_num) hj
  have h3 : (3 : ℝ) ^ i ≤ (K - 1) * 3 ^ i := le_mul_of_one_le_left (by positivity) (by linarith)
  have tri : |y x i - 1| ≤ |y x i| + 1 := by simpa using abs_sub (y x i) 1
  linarith

/-! ### Instances -/

/-- A price that jumps about for three bars and then stays at 7. -/
def halt (n : Nat) : ℝ := if n = 0 then 3 else if n = 1 then -5 else if n = 2 then 100 else 7
theorem halt_rests : Rests halt 7 := ⟨3, fun i hi => by simp only [halt, show i ≠ 0 by omega, show i ≠ 1 by omega, show i ≠ 2 by omega, if_false]⟩

def ropts (l : List ℝ) (n : Nat) : ℝ := l.getD n 0
theorem ropts_int (q : Nat) (hq : (q : Int) ≤ 2147483647) (l : List ℝ) : toInt (ropts ((q : ℝ) :: l) 0) = .ok (q : Int) := by
  have := toInt_cast (R := ℝ) (q : Int) (by omega)
  simpa [ropts] using this

example : Approaches emaBatch (ropts [((20 : Nat) : ℝ)]) 0 halt id 7 := by
  have := ema_follows (ropts [((20 : Nat) : ℝ)]) 20 (ropts_int 20 (by norm_num) _) (by norm_num) halt 7 halt_rests
  rwa [one_mul] at this
example : Approaches gf4Batch (ropts [((30 : Nat) : ℝ)]) 0 halt id 7 := by
  have := gf4_follows_partial (ropts [((30 : Nat) : ℝ)]) 15 (by norm_num) (by norm_num) (ropts_int 30 (by norm_num) _) halt 7 halt_rests
  rwa [one_mul] at this
example : Approaches ahmaBatch (ropts [((4 : Nat) : ℝ)]) 0 halt id 7 := by
  have := ahma_follows (ropts [((4 : Nat) : ℝ)]) 4 (ropts_int 4 (by norm_num) _) (by norm_num) halt 7 halt_rests
  rwa [one_mul] at this
example : Approaches roofBatch (ropts []) 0 halt id 0 := by have := roof_rests (ropts []) halt 7 halt_rests; rwa [zero_mul] at this
example : Approaches remaBatch (ropts [14, 1 / 2]) 0 halt id 7 := by
  have := rema_follows (ropts [14, 1 / 2]) (by norm_num [ropts]) (by norm_num [ropts]) halt 7 halt_rests; rwa [one_mul] at this
example : Freezes rsiBatch (ropts [((14 : Nat) : ℝ)]) 14 halt := rsi_freezes _ 14 (ropts_int 14 (by norm_num) _) (by norm_num) halt 7 halt_rests
example : Escapes mgdynBatch (ropts [14]) 0 (fun n => if n = 0 then (3 : ℝ) else 1) :=
  mgdyn_follows_violates _ (by norm_num [ropts]) 3 (by norm_num) (by norm_num [ropts])
example : Approaches mgdynBatch (ropts [14]) 0 (fun n => if n = 0 then (3 / 2 : ℝ) else 1) id 1 := by
  obtain ⟨y, hc, hy⟩ := mgdyn_value (ropts [(14 : ℝ)])
  obtain ⟨h0, h1⟩ := hy (fun n => if n = 0 then (3 / 2 : ℝ) else 1)
  have e := h1 0
  simp only [Nat.zero_add, one_ne_zero, if_false] at e
  rw [h0, if_pos rfl] at e
  have m := mg_move 14 (3 / 2) 1 (by norm_num) (by norm_num) (by norm_num)
  rw [show (ropts [(14 : ℝ)] 0) = 14 by simp [ropts]] at e
  refine mgdyn_follows_partial (ropts [14]) (by norm_num [ropts]) _ 1 (by norm_num) 1 (fun i hi => by simp only [show i ≠ 0 by omega, if_false]) _ (hc _ 2) _ (by simp [pre]; rfl) ?_ ?_
  all_goals (rw [e]; norm_num at m ⊢)
  · linarith
  · rw [show (3 / 2 + -(1 / 2) / (14 * CMath.pow (2 / 3 : ℝ) 4) : ℝ) = 1 + 143 / 448 by linarith, show ropts [14] 0 = 14 by simp [ropts]]
    norm_num

end Verif
