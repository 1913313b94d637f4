/- stochrsi: run in any arithmetic and correctness of its ring extrema (helper lemmas). -/
import Verif.Proof.Window
import Verif.Proof.ExtremumField

namespace Verif
open Spec
set_option linter.unusedSectionVars false
set_option linter.unusedSimpArgs false

section Gen
variable {R : Type} [Num R]

theorem ex_rsiRing (v : Nat → R) (p : Nat) (hp : 1 ≤ p) :
    ∃ b, (TiBuf.new (p : Int) : TiBuf R).push (v 0) = .ok b ∧ TiBuf.QHolds b p 1 v := by
  obtain ⟨b, h, H⟩ := TiBuf.push_ok (TiBuf.new_ok p v) hp (v 0) rfl
  exact ⟨b, h, H.toQHolds⟩

/-- The ring after `v 0` was pushed and `v 1, …, v n` were quick-pushed. -/
def rsiRing (v : Nat → R) (p : Nat) : Nat → TiBuf R
  | 0 => match (TiBuf.new (p : Int) : TiBuf R).push (v 0) with
    | .ok b => b
    | .error _ => TiBuf.new p
  | n + 1 => match (rsiRing v p n).qpush (v (n + 1)) with
    | .ok b => b
    | .error _ => rsiRing v p n

theorem rsiRing_holds (v : Nat → R) (p : Nat) (hp : 1 ≤ p) (n : Nat) : TiBuf.QHolds (rsiRing v p n) p (n + 1) v := by
  induction n with
  | zero => obtain ⟨b, h, H⟩ := ex_rsiRing v p hp; simp only [rsiRing, h]; exact H
  | succ n ih => obtain ⟨b, hb, H, _⟩ := TiBuf.qpush_ok ih hp (v (n + 1)) rfl; simp only [rsiRing, hb]; exact H

theorem rsiRing_zero (v : Nat → R) (p : Nat) (hp : 1 ≤ p) :
    (TiBuf.new (p : Int) : TiBuf R).push (v 0) = .ok (rsiRing v p 0) := by
  obtain ⟨b, h, H⟩ := ex_rsiRing v p hp; simp only [rsiRing, h]

theorem rsiRing_qpush (v : Nat → R) (p : Nat) (hp : 1 ≤ p) (n : Nat) :
    (rsiRing v p n).qpush (v (n + 1)) = .ok (rsiRing v p (n + 1)) := by
  obtain ⟨b, hb, H, _⟩ := TiBuf.qpush_ok (rsiRing_holds v p hp n) hp (v (n + 1)) rfl; simp only [rsiRing, hb]

/-- The tracked extremum after `n + 1` values. -/
def rtk (better : R → R → Bool) (v : Nat → R) (p : Nat) : Nat → Int × R
  | 0 => (0, v 0)
  | n + 1 => match ringTrack better (rsiRing v p n) (v (n + 1)) (rtk better v p n) with
    | .ok s => s
    | .error _ => rtk better v p n

theorem mod_window (n p j : Nat) (hj : j < p) (hn : p ≤ n + 1) : ∃ k, k ≤ n ∧ n < k + p ∧ k % p = j := by
  refine ⟨n - (n + p - j) % p, by omega, ?_, ?_⟩
  · have := Nat.mod_lt (n + p - j) (show 0 < p by omega); omega
  · have h1 := Nat.mod_lt (n + p - j) (show 0 < p by omega)
    have h2 := Nat.div_add_mod (n + p - j) p
    have e : n - (n + p - j) % p + p = j + p * ((n + p - j) / p) := by omega
    rw [← Nat.add_mod_right, e, Nat.add_mul_mod_self_left, Nat.mod_eq_of_lt hj]

/-- The rescan of a full ring, under an invariant. -/
theorem rescan_inv {better : R → R → Bool} {v : Nat → R} {p n : Nat} (hp : 1 ≤ p) {b : TiBuf R}
    (H : TiBuf.QHolds b p (n + 1) v) (hn : p ≤ n + 1) (I : Nat → Int × R → Prop) (s : Int × R) (h0 : I 0 s)
    (hskip : ∀ t, I ((n + 1) % p) t → I ((n + 1) % p + 1) t)
    (hstep : ∀ k t, k ≤ n → n + 1 < k + p → I (k % p) t →
      I (k % p + 1) (if better (v k) t.2 then (((k % p : Nat) : Int), v k) else t)) :
    ∃ s', (forUp 0 b.size s fun j s =>
      if j = b.index then .ok s
      else do
        let v ← b.at_ j
        return if better v s.2 then (j, v) else s) = .ok s' ∧ I p s' := by
  obtain ⟨s', h, hI⟩ := forUp_inv (f := fun j s =>
      if j = b.index then .ok s
      else do
        let v ← b.at_ j
        return if better v s.2 then (j, v) else s) (fun j s => I j.toNat s) (lo := 0) (hi := b.size) (s := s)
    (by rw [H.size]; omega) h0 (by
      intro j t h1 h2 ht
      rw [H.size] at h2
      obtain ⟨j, rfl⟩ : ∃ k : Nat, j = k := ⟨j.toNat, by omega⟩
      simp only [Int.toNat_natCast, H.index] at ht ⊢
      by_cases hj : j = (n + 1) % p
      · subst hj
        rw [if_pos rfl]
        exact ⟨t, rfl, hskip t ht⟩
      · rw [if_neg (by omega)]
        obtain ⟨k, hk1, hk2, hk3⟩ := mod_window n p j (by omega) hn
        have hk4 : n + 1 < k + p := by
          rcases Nat.lt_or_ge (n + 1) (k + p) with h | h
          · exact h
          · exfalso
            have : n + 1 = k + p := by omega
            rw [this, Nat.add_mod_right] at hj
            omega
        subst hk3
        rw [TiBuf.at_hist H hp k (by omega) (by omega) _ rfl]
        exact ⟨_, rfl, hstep k t hk1 hk4 ht⟩)
  exact ⟨s', h, by simpa [H.size] using hI⟩

theorem rtk_ok (better : R → R → Bool) (v : Nat → R) (p : Nat) (hp : 1 ≤ p) (n : Nat) :
    (∃ k : Nat, (rtk better v p n).1 = k ∧ k < p ∧ k ≤ n) ∧
    ringTrack better (rsiRing v p n) (v (n + 1)) (rtk better v p n) = .ok (rtk better v p (n + 1)) := by
  have key : ∀ n, (∃ k : Nat, (rtk better v p n).1 = k ∧ k < p ∧ k ≤ n) →
      ∃ s, ringTrack better (rsiRing v p n) (v (n + 1)) (rtk better v p n) = .ok s ∧
        ∃ k : Nat, s.1 = k ∧ k < p ∧ k ≤ n + 1 := by
    intro n hk
    have H := rsiRing_holds v p hp n
    have hlt := Nat.mod_lt (n + 1) (show 0 < p by omega)
    have hle := Nat.mod_le (n + 1) p
    unfold ringTrack
    split
    · exact ⟨_, rfl, (n + 1) % p, H.index, hlt, hle⟩
    · split
      · rename_i hi
        rw [H.index] at hi
        obtain ⟨k, h1, h2, h3⟩ := hk
        have hn : p ≤ n + 1 := by
          rcases Nat.lt_or_ge (n + 1) p with h | h
          · rw [Nat.mod_eq_of_lt h] at hi; omega
          · exact h
        obtain ⟨s', hs, k, e1, e2⟩ := rescan_inv (better := better) hp H hn
          (fun _ s => ∃ k : Nat, s.1 = k ∧ k < p) ((rtk better v p n).1, v (n + 1)) ⟨k, h1, h2⟩ (fun _ h => h)
          (fun k t _ _ ht => by
            split
            · exact ⟨_, rfl, Nat.mod_lt _ (by omega)⟩
            · exact ht)
        exact ⟨s', hs, k, e1, e2, by omega⟩
      · obtain ⟨k, h1, h2, h3⟩ := hk
        exact ⟨_, rfl, k, h1, h2, by omega⟩
  have inv : ∀ n, ∃ k : Nat, (rtk better v p n).1 = k ∧ k < p ∧ k ≤ n := by
    intro n
    induction n with
    | zero => exact ⟨0, rfl, by omega, by omega⟩
    | succ n ih =>
      obtain ⟨s, hs, h⟩ := key n ih
      simp only [rtk, hs]
      exact h
  refine ⟨inv n, ?_⟩
  obtain ⟨s, hs, _⟩ := key n (inv n)
  simp only [rtk, hs]

/-- The rsi values stochrsi works on. -/
def rsiSeq (p : Nat) (x : Nat → R) (j : Nat) : R := rsiOut (wildersRec p (upSig x) j) (wildersRec p (downSig x) j)

def stochrsiV (p : Nat) (x : Nat → R) (j : Nat) : R :=
  let mx := (rtk (fun a b => decide (b < a)) (rsiSeq p x) p (j + (p - 1))).2
  let mn := (rtk (fun a b => decide (a < b)) (rsiSeq p x) p (j + (p - 1))).2
  if mx - mn == c! 0 then c! 0 else (rsiSeq p x (j + (p - 1)) - mn) / (mx - mn)

theorem stochrsiStart_ok (o : Nat → R) (p : Nat) (hc : toInt (o 0) = .ok (p : Int)) (hp : 2 ≤ p)
    (hb : p ≤ 1073741823) : stochrsiStart o = .ok ((2 * p - 1 : Nat) : Int) := by
  simp only [stochrsiStart, hc, bind_ok]
  rw [i32_ok _ (by omega) (by omega), bind_ok, i32_ok _ (by omega) (by omega)]
  congr 1; omega

theorem stochrsi_run (o : Nat → R) (p : Nat) (hc : toInt (o 0) = .ok (p : Int)) (hp : 2 ≤ p)
    (hb : p ≤ 1073741823) : Computes stochrsiBatch o (2 * p - 1) (stochrsiV p) := by
  intro x N
  unfold stochrsiBatch
  simp only [hc, bind_ok, stochrsiStart_ok o p hc hp hb, length_pre, pure_eq]
  rw [if_neg (by omega)]
  split
  · rename_i h; simp [show N - (2 * p - 1) = 0 by omega]
  refine forUp_bind 1 (p + 1) (fun i => (sumTo (upSig x) (i - 1), sumTo (downSig x) (i - 1))) rfl (by omega) rfl
    (by omega) ?_ ?_
  · intro i h1 hi
    obtain ⟨k, rfl⟩ : ∃ k, i = k + 1 := ⟨i - 1, by omega⟩
    run_simp [show ((k + 1 : Nat) : Int) - 1 = (k : Int) by omega, Nat.add_sub_cancel, sumTo, upSig, downSig]
  have e0 : rsiOut (sumTo (upSig x) (p + 1 - 1) / ((p : Int) : R)) (sumTo (downSig x) (p + 1 - 1) / ((p : Int) : R))
      = rsiSeq p x 0 := rfl
  simp only [e0]
  rw [rsiRing_zero (rsiSeq p x) p (by omega), bind_ok]
  refine forUp_bind (p + 1) N (fun i => (wildersRec p (upSig x) (i - (p + 1)), wildersRec p (downSig x) (i - (p + 1)),
    rtk (fun a b => decide (b < a)) (rsiSeq p x) p (i - (p + 1)), rtk (fun a b => decide (a < b)) (rsiSeq p x) p (i - (p + 1)),
    rsiRing (rsiSeq p x) p (i - (p + 1)), pre (stochrsiV p x) (i - (2 * p - 1)))) (by omega) rfl ?_
    (by omega) ?_ ?_
  · simp [wildersRec, rtk, show p + 1 - (2 * p - 1) = 0 by omega]
  · intro i h1 hi
    obtain ⟨k, rfl⟩ : ∃ k, i = k + (p + 1) := ⟨i - (p + 1), by omega⟩
    run_simp [show ((k + (p + 1) : Nat) : Int) - 1 = ((k + p : Nat) : Int) by omega, Nat.add_sub_cancel,
      show k + (p + 1) + 1 - (p + 1) = k + 1 by omega]
    have e1 : (upward (x (k + (p + 1))) (x (k + p)) - wildersRec p (upSig x) k) * (c! 1 / ((p : Int) : R)) + wildersRec p (upSig x) k
      = wildersRec p (upSig x) (k + 1) := rfl
    have e2 : (downward (x (k + (p + 1))) (x (k + p)) - wildersRec p (downSig x) k) * (c! 1 / ((p : Int) : R)) + wildersRec p (downSig x) k
      = wildersRec p (downSig x) (k + 1) := rfl
    have e3 : rsiOut (wildersRec p (upSig x) (k + 1)) (wildersRec p (downSig x) (k + 1)) = rsiSeq p x (k + 1) := rfl
    rw [e1, e2, e3, (rtk_ok _ (rsiSeq p x) p (by omega) k).2, bind_ok, (rtk_ok _ (rsiSeq p x) p (by omega) k).2, bind_ok,
      rsiRing_qpush _ _ (by omega), bind_ok]
    by_cases hk : p - 2 ≤ k
    · obtain ⟨l, rfl⟩ : ∃ l, k = l + (p - 2) := ⟨k - (p - 2), by omega⟩
      rw [if_pos (by omega),
        show l + (p - 2) + (p + 1) - (2 * p - 1) = l by omega,
        show l + (p - 2) + (p + 1) + 1 - (2 * p - 1) = l + 1 by omega, pre_snoc (m := l + 1) rfl]
      simp only [stochrsiV, show l + (p - 2) + 1 = l + (p - 1) by omega]
    · rw [if_neg (by omega), show k + (p + 1) - (2 * p - 1) = 0 by omega,
        show k + (p + 1) + 1 - (2 * p - 1) = 0 by omega]
  · run_simp []

end Gen

section Ord
variable {R : Type} [Field R] [LinearOrder R] [IsStrictOrderedRing R] [CMath R]

/-- The tracked value is the best of the last `p` values. -/
theorem rtk_best {better : R → R → Bool} {le : R → R → Prop} (hb : ∀ a b, better a b = true ↔ ¬ le a b)
    (hr : ∀ a, le a a) (ht : ∀ a b c, le a b → le b c → le a c) (htot : ∀ a b, ¬ le a b → le b a)
    (v : Nat → R) (p : Nat) (hp : 1 ≤ p) (n : Nat) :
    ∃ k, k ≤ n ∧ n < k + p ∧ rtk better v p n = (((k % p : Nat) : Int), v k) ∧ ∀ j, j ≤ n → n < j + p → le (v j) (v k) := by
  induction n with
  | zero =>
    refine ⟨0, le_rfl, by omega, by simp [rtk], fun j h1 h2 => ?_⟩
    obtain rfl : j = 0 := by omega
    exact hr _
  | succ n ih =>
    obtain ⟨k, h1, h2, h3, h4⟩ := ih
    have hstep := (rtk_ok better v p hp n).2
    have H := rsiRing_holds v p hp n
    unfold ringTrack at hstep
    rw [h3] at hstep
    split at hstep
    · rename_i hbt
      have hn := (hb _ _).1 hbt
      rw [← Except.ok.inj hstep]
      refine ⟨n + 1, le_rfl, by omega, by rw [H.index], fun j hj1 hj2 => ?_⟩
      by_cases hj : j = n + 1
      · subst hj; exact hr _
      · exact ht _ _ _ (h4 j (by omega) (by omega)) (htot _ _ hn)
    · rename_i hbt
      have hn : le (v (n + 1)) (v k) := by
        by_contra h; exact hbt ((hb _ _).2 h)
      split at hstep
      · rename_i hi
        rw [H.index] at hi
        simp only at hi
        have hpn : p ≤ n + 1 := by
          rcases Nat.lt_or_ge (n + 1) p with h | h
          · rw [Nat.mod_eq_of_lt h, Nat.mod_eq_of_lt (show k < p by omega)] at hi; omega
          · exact h
        obtain ⟨s', hs, k', e1, e2, e3, e4⟩ := rescan_inv (better := better) hp H hpn
          (fun m s => ∃ k', k' ≤ n + 1 ∧ n + 1 < k' + p ∧ s = (((k' % p : Nat) : Int), v k') ∧
            le (v (n + 1)) (v k') ∧ ∀ j, j ≤ n → n + 1 < j + p → j % p < m → le (v j) (v k'))
          (((k % p : Nat) : Int), v (n + 1)) ⟨n + 1, le_rfl, by omega, by rw [← hi], hr _, fun j _ _ h => by omega⟩
          (by
            rintro t ⟨k', a1, a2, a3, a4, a5⟩
            refine ⟨k', a1, a2, a3, a4, fun j b1 b2 b3 => a5 j b1 b2 ?_⟩
            rcases Nat.lt_or_ge (j % p) ((n + 1) % p) with h | h
            · exact h
            · exfalso
              have he : (n + 1) % p = j % p := by omega
              have h3 : (n + 1 - j) % p = 0 := Nat.sub_mod_eq_zero_of_mod_eq he
              rw [Nat.mod_eq_of_lt (by omega)] at h3
              omega)
          (by
            rintro i t b1 b2 ⟨k', a1, a2, a3, a4, a5⟩
            have uniq : ∀ j, j ≤ n → n + 1 < j + p → j % p < i % p + 1 → ¬ j % p < i % p → j = i := by
              intro j c1 c2 c3 c4
              have he : j % p = i % p := by omega
              rcases Nat.lt_or_ge j i with h | h
              · have h3 : (i - j) % p = 0 := Nat.sub_mod_eq_zero_of_mod_eq he.symm
                rw [Nat.mod_eq_of_lt (by omega)] at h3; omega
              · have h3 : (j - i) % p = 0 := Nat.sub_mod_eq_zero_of_mod_eq he
                rw [Nat.mod_eq_of_lt (by omega)] at h3; omega
            subst a3
            simp only
            split
            · rename_i hbt'
              have hn' := (hb _ _).1 hbt'
              refine ⟨i, by omega, by omega, rfl, ht _ _ _ a4 (htot _ _ hn'), fun j c1 c2 c3 => ?_⟩
              by_cases hj : j % p < i % p
              · exact ht _ _ _ (a5 j c1 c2 hj) (htot _ _ hn')
              · rw [uniq j c1 c2 c3 hj]; exact hr _
            · rename_i hbt'
              have hn' : le (v i) (v k') := by
                by_contra h; exact hbt' ((hb _ _).2 h)
              refine ⟨k', a1, a2, rfl, a4, fun j c1 c2 c3 => ?_⟩
              by_cases hj : j % p < i % p
              · exact a5 j c1 c2 hj
              · rw [uniq j c1 c2 c3 hj]; exact hn')
        rw [hs] at hstep
        rw [← Except.ok.inj hstep]
        refine ⟨k', e1, e2, e3, fun j c1 c2 => ?_⟩
        by_cases hj : j = n + 1
        · subst hj; exact e4.1
        · exact e4.2 j (by omega) c2 (Nat.mod_lt _ (by omega))
      · rename_i hi
        rw [H.index] at hi
        rw [← Except.ok.inj hstep]
        have hk : n + 1 < k + p := by
          rcases Nat.lt_or_ge (n + 1) (k + p) with h | h
          · exact h
          · exfalso
            have : n + 1 = k + p := by omega
            rw [this, Nat.add_mod_right] at hi
            exact hi rfl
        refine ⟨k, by omega, hk, rfl, fun j c1 c2 => ?_⟩
        by_cases hj : j = n + 1
        · subst hj; exact hn
        · exact h4 j (by omega) (by omega)

theorem rtk_max (v : Nat → R) (p : Nat) (hp : 1 ≤ p) (j : Nat) :
    (rtk (fun a b : R => decide (b < a)) v p (j + (p - 1))).2 = winMax p v j := by
  obtain ⟨k, h1, h2, h3, h4⟩ := rtk_best (better := fun a b : R => decide (b < a)) (le := (· ≤ ·)) (fun a b => by simp)
    le_refl (fun _ _ _ => le_trans) (fun _ _ h => (not_le.1 h).le) v p hp (j + (p - 1))
  rw [h3]
  apply le_antisymm
  · exact le_winMax p v j k (by omega) (by omega)
  · obtain ⟨i, a1, a2, e⟩ := winMax_mem p hp v j
    rw [e]; exact h4 i (by omega) (by omega)

theorem rtk_min (v : Nat → R) (p : Nat) (hp : 1 ≤ p) (j : Nat) :
    (rtk (fun a b : R => decide (a < b)) v p (j + (p - 1))).2 = winMin p v j := by
  obtain ⟨k, h1, h2, h3, h4⟩ := rtk_best (better := fun a b : R => decide (a < b)) (le := fun a b => b ≤ a)
    (fun a b => by simp) le_refl (fun _ _ _ h h' => le_trans h' h) (fun _ _ h => (not_le.1 h).le) v p hp (j + (p - 1))
  rw [h3]
  apply le_antisymm
  · obtain ⟨i, a1, a2, e⟩ := winMin_mem p hp v j
    rw [e]; exact h4 i (by omega) (by omega)
  · exact winMin_le p v j k (by omega) (by omega)

end Ord
end Verif
