/- pc, ce, ichi, smi: the running extremum and the runs (helper lemmas). -/
import Verif.Model.Chan
import Verif.Proof.Loop
import Verif.Proof.RingMax
import Verif.Proof.ExtremumField
import Verif.Proof.Flow
import Verif.Proof.StreamErr

set_option linter.unusedSectionVars false
set_option linter.unusedSimpArgs false
set_option linter.unusedVariables false

namespace Verif
open Spec Finset

section Loop
variable {ρ σ ω : Type}

theorem loopBatch_inv {phs : List (Phase ρ σ ω)} {p0 : Int} {s0 : σ} (x : Nat → ρ) (N start : Nat) (cap : Int)
    (hcap : (N : Int) - start ≤ cap) (hord : Phases.OrderedFrom p0 phs) (I : Nat → σ → Prop) (h0 : I 0 s0) (val : Nat → ω)
    (step : ∀ n s, n < N → I n s → ∃ s', barStep phs (p0 + n) (x n) s =
        .ok (s', if n < start then [] else [val (n - start)]) ∧ I (n + 1) s') :
    loopBatch cap phs p0 s0 (pre x N) = .ok (.okay, pre val (N - start)) := by
  unfold loopBatch
  rw [runPhases_eq_barFold' hord _ _ le_rfl]
  obtain ⟨s', hs', _⟩ := barFold_spec (phs := phs) x p0 (fun n => if n < start then [] else [val (n - start)])
    I N (fun n s hn h => step n s hn h) N 0 s0 (by omega) h0
  rw [seg_zero_eq_pre, seg_zero_eq_pre, flatten_emit start N (fun n => val (n - start))] at hs'
  simp only [Nat.cast_zero, Int.add_zero, Nat.zero_add] at hs'
  rw [hs']
  simp only [Nat.add_sub_cancel]
  rw [if_pos (by simp; omega)]

/-- A batch call that runs for `m` bars and then hits undefined behaviour. -/
theorem loopBatch_err {phs : List (Phase ρ σ ω)} {p0 : Int} {s0 : σ} (cap : Int) (hord : Phases.OrderedFrom p0 phs) (x : Nat → ρ)
    (T : Nat → σ) (w : Nat → List ω) (e : UB) (m : Nat) (h0 : s0 = T 0)
    (step : ∀ n, n < m → barStep phs (p0 + n) (x n) (T n) = .ok (T (n + 1), w n))
    (herr : barStep phs (p0 + m) (x m) (T m) = .error e) (N : Nat) (hm : m < N) : loopBatch cap phs p0 s0 (pre x N) = .error e := by
  unfold loopBatch
  rw [runPhases_eq_barFold' hord _ _ le_rfl]
  have := barFold_err phs x p0 T w e m step herr m 0 (by omega) N hm
  rw [seg_zero_eq_pre, show p0 + ((0 : Nat) : Int) = p0 by omega, ← h0] at this
  rw [this]

theorem map_pre {α β : Type} (f : α → β) (x : Nat → α) (n : Nat) : (pre x n).map f = pre (fun i => f (x i)) n := by
  simp [pre]

end Loop

section Ext
variable {R : Type} [Num R] {cmp rep : R → R → Bool} {le : R → R → Prop}

/-- After bar `n` the tracker holds a best price of the last `p` bars (or of all, if there are fewer). -/
def Ext.Kept (le : R → R → Prop) (x : Nat → R) (p : Nat) (base : Int) (n : Nat) (e : Ext R) : Prop :=
  ∃ a : Nat, e.val = some (x a) ∧ e.idx = some (base + a) ∧ a ≤ n ∧ n < a + p ∧ ∀ k, k ≤ n → n < k + p → le (x k) (x a)

theorem Ext.set_init (C : Rep rep le) (x : Nat → R) (p : Nat) (hp : 1 ≤ p) (base : Int) (v : R) (i : Int) (hv : v = x 0)
    (hi : i = base) : Ext.Kept le x p base 0 ⟨some v, some i⟩ := by
  subst hv hi
  refine ⟨0, rfl, by simp, le_rfl, by omega, fun k h1 h2 => ?_⟩
  obtain rfl : k = 0 := by omega
  exact C.rfl' _

theorem Ext.take_init (C : Rep rep le) (x : Nat → R) (p : Nat) (hp : 1 ≤ p) (base : Int) (e : Ext R) (he : e.val = none) :
    Ext.Kept le x p base 0 (e.take rep (x 0) base) := by
  have : e.take rep (x 0) base = ⟨some (x 0), some base⟩ := by unfold Ext.take; rw [he]
  rw [this]
  exact Ext.set_init C x p hp base _ _ rfl rfl

theorem Ext.take_step (C : Rep rep le) {x : Nat → R} {p : Nat} (hp : 1 ≤ p) {base : Int} {n : Nat} {e : Ext R}
    (h : Ext.Kept le x p base n e) (hx : e.idx ≠ some (base + (n + 1 : Nat) - p)) (i : Int) (hi : i = base + (n + 1 : Nat)) :
    Ext.Kept le x p base (n + 1) (e.take rep (x (n + 1)) i) := by
  subst hi
  obtain ⟨a, hv, hi, h1, h2, h3⟩ := h
  have hap : n + 1 < a + p := by
    by_contra hc
    apply hx
    rw [hi]
    congr 1
    have : a + p = n + 1 := by omega
    omega
  unfold Ext.take
  rw [hv]
  dsimp only
  by_cases hr : rep (x (n + 1)) (x a) = true
  · rw [if_pos hr]
    have hr := (C.iff _ _).1 hr
    refine ⟨n + 1, rfl, rfl, le_rfl, by omega, fun k hk1 hk2 => ?_⟩
    by_cases hk : k = n + 1
    · subst hk; exact C.rfl' _
    · exact C.trans _ _ _ (h3 k (by omega) (by omega)) hr
  · rw [if_neg hr]
    refine ⟨a, hv, hi, by omega, hap, fun k hk1 hk2 => ?_⟩
    by_cases hk : k = n + 1
    · subst hk; exact C.total _ _ fun h => hr ((C.iff _ _).2 h)
    · exact h3 k (by omega) (by omega)

/-- What is needed of the search of a batch call. -/
def Finds (le : R → R → Prop) (find : List R → Nat → Nat → M Nat) : Prop :=
  ∀ (x : Nat → R) (N lo hi : Nat), lo < hi → hi ≤ N →
    ∃ it, find (pre x N) lo hi = .ok it ∧ lo ≤ it ∧ it < hi ∧ ∀ j, lo ≤ j → j < hi → le (x j) (x it)

theorem pre_getElem? {α : Type} (x : Nat → α) (N j : Nat) (h : j < N) : (pre x N)[j]? = some (x j) := by
  simp [pre, h]

theorem maxDown_finds (C : Ring.Cmp cmp le) : Finds le (Ring.maxDown cmp) := by
  intro x N lo hi h1 h2
  exact Ring.maxDown_ok C (pre x N) x lo hi h1 fun j _ hj => pre_getElem? x N j (by omega)

theorem scanUp_ok (C : Ring.Cmp cmp le) (x : Nat → R) (N lo : Nat) : ∀ (n j best : Nat), lo ≤ best → best < j →
    j + n ≤ N → (∀ k, lo ≤ k → k < j → le (x k) (x best)) →
      ∃ it, scanUp cmp (pre x N) n j best = .ok it ∧ lo ≤ it ∧ it < j + n ∧ ∀ k, lo ≤ k → k < j + n → le (x k) (x it) := by
  intro n
  induction n with
  | zero => intro j best h1 h2 h3 h4; exact ⟨best, rfl, h1, by omega, fun k hk hk' => h4 k hk (by omega)⟩
  | succ n ih =>
    intro j best h1 h2 h3 h4
    rw [scanUp, Ring.rd_get? (pre_getElem? x N best (by omega)), bind_ok, Ring.rd_get? (pre_getElem? x N j (by omega)), bind_ok]
    have : ∀ b, lo ≤ b → b < j + 1 → (∀ k, lo ≤ k → k < j + 1 → le (x k) (x b)) → ∃ it, scanUp cmp (pre x N) n (j + 1) b = .ok it ∧
        lo ≤ it ∧ it < j + (n + 1) ∧ ∀ k, lo ≤ k → k < j + (n + 1) → le (x k) (x it) := by
      intro b hb1 hb2 hb3
      have := ih (j + 1) b hb1 hb2 (by omega) hb3
      rwa [show j + 1 + n = j + (n + 1) by omega] at this
    cases hc : cmp (x best) (x j) with
    | true =>
      rw [if_pos rfl]
      refine this j (by omega) (by omega) fun k hk1 hk2 => ?_
      by_cases hk : k = j
      · subst hk; exact C.rfl' _
      · exact C.trans _ _ _ (h4 k hk1 (by omega)) (C.of_true _ _ hc)
    | false =>
      rw [if_neg (by simp)]
      refine this best h1 (by omega) fun k hk1 hk2 => ?_
      by_cases hk : k = j
      · subst hk; exact C.of_false _ _ hc
      · exact h4 k hk1 (by omega)

theorem maxUp_finds (C : Ring.Cmp cmp le) : Finds le (maxUp cmp) := by
  intro x N lo hi h1 h2
  unfold maxUp
  rw [if_pos h1]
  obtain ⟨it, h, h3, h4, h5⟩ := scanUp_ok C x N lo (hi - 1 - lo) (lo + 1) lo le_rfl (by omega) (by omega) (fun k hk hk' => by
    obtain rfl : k = lo := by omega
    exact C.rfl' _)
  exact ⟨it, h, h3, by omega, fun j hj hj' => h5 j hj (by omega)⟩

theorem Ext.batch_step (C : Rep rep le) {find : List R → Nat → Nat → M Nat} (F : Finds le find) {x : Nat → R} {p N n : Nat}
    (hp : 1 ≤ p) (hn : n + 1 < N) {e : Ext R} (h : Ext.Kept le x p 0 n e) (i : Int) (hi : i = (n + 1 : Nat)) :
    ∃ e', e.batch find rep (pre x N) (p : Int) i = .ok e' ∧ Ext.Kept le x p 0 (n + 1) e' := by
  subst hi
  unfold Ext.batch
  have h' := h
  obtain ⟨a, hv, hi, h1, h2, h3⟩ := h
  rw [hi]
  simp only [getV, bind_ok]
  by_cases hc : (0 : Int) + (a : Int) = ((n + 1 : Nat) : Int) - p
  · rw [if_pos hc, if_neg (by omega)]
    have e1 : (((n + 1 : Nat) : Int) - p + 1).toNat = n + 2 - p := by omega
    have e2 : (((n + 1 : Nat) : Int) + 1).toNat = n + 2 := by omega
    obtain ⟨it, hf, hi1, hi2, hi3⟩ := F x N (n + 2 - p) (n + 2) (by omega) (by omega)
    simp only [pure_eq, bind_ok, e1, e2, hf]
    rw [rd_pre_nat _ _ _ (by omega), bind_ok]
    exact ⟨_, rfl, it, rfl, by simp, by omega, by omega, fun k hk1 hk2 => hi3 k (by omega) (by omega)⟩
  · rw [if_neg hc, rd_pre_nat _ _ _ hn, bind_ok]
    refine ⟨_, rfl, Ext.take_step C hp h' ?_ _ (by omega)⟩
    rw [hi]
    intro he
    apply hc
    have := Option.some.inj he
    omega

theorem Ext.batch_init (C : Rep rep le) {find : List R → Nat → Nat → M Nat} {x : Nat → R} {p N : Nat}
    (hp : 1 ≤ p) (hn : 0 < N) (i : Int) (hi : i = 0) :
    ∃ e', (⟨none, some 0⟩ : Ext R).batch find rep (pre x N) (p : Int) i = .ok e' ∧ Ext.Kept le x p 0 0 e' := by
  subst hi
  unfold Ext.batch
  simp only [getV, bind_ok]
  rw [if_neg (by omega), rd_zero _ _ hn, bind_ok]
  exact ⟨_, rfl, Ext.take_init C x p hp 0 _ rfl⟩

theorem Ext.stream_step (C : Rep rep le) (K : Ring.Cmp cmp le) {x : Nat → R} {p m n : Nat} {base : Int}
    (hp : 1 ≤ p) (hm : p ≤ m) {e : Ext R} (h : Ext.Kept le x p base n e) (i : Int) (hi : i = base + (n + 1 : Nat)) :
    ∃ e', e.stream cmp rep (Ring.now x m (n + 1)) (p : Int) i (x (n + 1)) = .ok e' ∧ Ext.Kept le x p base (n + 1) e' := by
  subst hi
  unfold Ext.stream
  have h' := h
  obtain ⟨a, hv, hi, h1, h2, h3⟩ := h
  rw [hi]
  simp only [getV, bind_ok]
  by_cases hc : base + (a : Int) = base + ((n + 1 : Nat) : Int) - p
  · rw [if_pos hc]
    have hnow := Ring.now_now x m (by omega) (n + 1)
    obtain ⟨it, b, hf, ha, hb, hr, hbest⟩ := Ring.findMax_ok K (g := fun k => if k ≤ n + 1 then x (n + 1 - k) else c! 0)
      hnow.len hnow.pos (fun k hk => hnow.val k hk) p hp hm
    simp only [hf, bind_ok, hr, ha]
    refine ⟨_, rfl, n + 1 - b, ?_, ?_, by omega, by omega, fun k hk1 hk2 => ?_⟩
    · dsimp only; rw [if_pos (by omega)]
    · dsimp only; congr 1; omega
    · have := hbest (n + 1 - k) (by omega)
      rw [if_pos (by omega), if_pos (by omega), show n + 1 - (n + 1 - k) = k by omega] at this
      exact this
  · rw [if_neg hc]
    refine ⟨_, rfl, Ext.take_step C hp h' ?_ _ (by omega)⟩
    rw [hi]
    intro he
    apply hc
    have := Option.some.inj he
    omega

theorem Ext.stream_init (C : Rep rep le) {x : Nat → R} {p : Nat} {base : Int} (hb : base ≤ 0) (r : Ring R)
    (hp : 1 ≤ p) (i : Int) (hi : i = base) :
    ∃ e', (⟨none, some 0⟩ : Ext R).stream cmp rep r (p : Int) i (x 0) = .ok e' ∧ Ext.Kept le x p base 0 e' := by
  subst hi
  unfold Ext.stream
  simp only [getV, bind_ok]
  rw [if_neg (by omega)]
  exact ⟨_, rfl, Ext.take_init C x p hp i _ rfl⟩

end Ext

section Field
variable {R : Type} [Field R] [LinearOrder R] [IsStrictOrderedRing R] [CMath R]

theorem less_cmp : Ring.Cmp (cmpLess (R := R)) (· ≤ ·) :=
  ⟨fun a => le_refl a, fun a b c => le_trans, fun a b h => le_of_lt (of_decide_eq_true h), fun a b h => not_lt.1 (of_decide_eq_false h)⟩
theorem greater_cmp : Ring.Cmp (cmpGreater (R := R)) (fun a b => b ≤ a) :=
  ⟨fun a => le_refl a, fun a b c h1 h2 => le_trans h2 h1, fun a b h => le_of_lt (of_decide_eq_true h),
    fun a b h => not_lt.1 (of_decide_eq_false h)⟩

/-- Highest value of the last `p` bars up to bar `n`, or of all of them if there are fewer. -/
def recMax (p : Nat) (x : Nat → R) (n : Nat) : R := winMax (min p (n + 1)) x (n + 1 - min p (n + 1))
def recMin (p : Nat) (x : Nat → R) (n : Nat) : R := winMin (min p (n + 1)) x (n + 1 - min p (n + 1))

theorem recMax_full (p : Nat) (x : Nat → R) (n : Nat) (h : p ≤ n + 1) : recMax p x n = winMax p x (n + 1 - p) := by
  unfold recMax; rw [min_eq_left h]
theorem recMin_full (p : Nat) (x : Nat → R) (n : Nat) (h : p ≤ n + 1) : recMin p x n = winMin p x (n + 1 - p) := by
  unfold recMin; rw [min_eq_left h]

theorem Ext.Kept.max {x : Nat → R} {p : Nat} (hp : 1 ≤ p) {base : Int} {n : Nat} {e : Ext R}
    (h : Ext.Kept (· ≤ ·) x p base n e) : e.val = some (recMax p x n) := by
  obtain ⟨a, hv, hi, h1, h2, h3⟩ := h
  rw [hv]
  congr 1
  have hm : 1 ≤ min p (n + 1) := by omega
  apply le_antisymm
  · exact le_winMax _ x _ a (by omega) (by omega)
  · obtain ⟨k, hk1, hk2, e⟩ := winMax_mem (min p (n + 1)) hm x (n + 1 - min p (n + 1))
    unfold recMax
    rw [e]
    exact h3 k (by omega) (by omega)

theorem Ext.Kept.min {x : Nat → R} {p : Nat} (hp : 1 ≤ p) {base : Int} {n : Nat} {e : Ext R}
    (h : Ext.Kept (fun a b => b ≤ a) x p base n e) : e.val = some (recMin p x n) := by
  obtain ⟨a, hv, hi, h1, h2, h3⟩ := h
  rw [hv]
  congr 1
  have hm : 1 ≤ Min.min p (n + 1) := by omega
  apply le_antisymm
  · obtain ⟨k, hk1, hk2, e⟩ := winMin_mem (Min.min p (n + 1)) hm x (n + 1 - Min.min p (n + 1))
    unfold recMin
    rw [e]
    exact h3 k (by omega) (by omega)
  · exact winMin_le _ x _ a (by omega) (by omega)

/-- Both trackers. -/
def HiLo.Kept (h l : Nat → R) (p : Nat) (base : Int) (n : Nat) (s : HiLo R) : Prop :=
  Ext.Kept (· ≤ ·) h p base n s.hi ∧ Ext.Kept (fun a b => b ≤ a) l p base n s.lo

theorem HiLo.take_init (h l : Nat → R) (p : Nat) (hp : 1 ≤ p) (base : Int) (s : HiLo R) (h1 : s.hi.val = none) (h2 : s.lo.val = none) :
    HiLo.Kept h l p base 0 (s.take (h 0) (l 0) base) :=
  ⟨Ext.take_init repMax_rep h p hp base _ h1, Ext.take_init repMin_rep l p hp base _ h2⟩

theorem HiLo.take_step {h l : Nat → R} {p : Nat} (hp : 1 ≤ p) {base : Int} {n : Nat} {s : HiLo R} (H : HiLo.Kept h l p base n s)
    (hn : n + 1 < p) (i : Int) (hi : i = base + (n + 1 : Nat)) : HiLo.Kept h l p base (n + 1) (s.take (h (n + 1)) (l (n + 1)) i) := by
  refine ⟨Ext.take_step repMax_rep hp H.1 ?_ i hi, Ext.take_step repMin_rep hp H.2 ?_ i hi⟩
  · obtain ⟨a, _, h2, _⟩ := H.1
    rw [h2]; intro he; have := Option.some.inj he; omega
  · obtain ⟨a, _, h2, _⟩ := H.2
    rw [h2]; intro he; have := Option.some.inj he; omega

theorem HiLo.batchDown_step {h l : Nat → R} {p N n : Nat} (hp : 1 ≤ p) (hn : n + 1 < N) {s : HiLo R} (H : HiLo.Kept h l p 0 n s)
    (i : Int) (hi : i = (n + 1 : Nat)) : ∃ s', s.batchDown (pre h N) (pre l N) (p : Int) i = .ok s' ∧ HiLo.Kept h l p 0 (n + 1) s' := by
  obtain ⟨e1, h1, k1⟩ := Ext.batch_step repMax_rep (maxDown_finds less_cmp) hp hn H.1 i hi
  obtain ⟨e2, h2, k2⟩ := Ext.batch_step repMin_rep (maxDown_finds greater_cmp) hp hn H.2 i hi
  exact ⟨⟨e1, e2⟩, by unfold HiLo.batchDown; rw [h1, bind_ok, h2]; rfl, k1, k2⟩

theorem HiLo.batchUp_step {h l : Nat → R} {p N n : Nat} (hp : 1 ≤ p) (hn : n + 1 < N) {s : HiLo R} (H : HiLo.Kept h l p 0 n s)
    (i : Int) (hi : i = (n + 1 : Nat)) : ∃ s', s.batchUp (pre h N) (pre l N) (p : Int) i = .ok s' ∧ HiLo.Kept h l p 0 (n + 1) s' := by
  obtain ⟨e1, h1, k1⟩ := Ext.batch_step repMax_rep (maxUp_finds less_cmp) hp hn H.1 i hi
  obtain ⟨e2, h2, k2⟩ := Ext.batch_step repMin_rep (maxUp_finds greater_cmp) hp hn H.2 i hi
  exact ⟨⟨e1, e2⟩, by unfold HiLo.batchUp; rw [h1, bind_ok, h2]; rfl, k1, k2⟩

theorem HiLo.batchUp_init (h l : Nat → R) {p N : Nat} (hp : 1 ≤ p) (hn : 0 < N) (i : Int) (hi : i = 0) :
    ∃ s', (HiLo.zero (R := R)).batchUp (pre h N) (pre l N) (p : Int) i = .ok s' ∧ HiLo.Kept h l p 0 0 s' := by
  obtain ⟨e1, h1, k1⟩ := Ext.batch_init (x := h) (find := maxUp cmpLess) repMax_rep hp hn i hi
  obtain ⟨e2, h2, k2⟩ := Ext.batch_init (x := l) (find := maxUp cmpGreater) repMin_rep hp hn i hi
  exact ⟨⟨e1, e2⟩, by unfold HiLo.batchUp HiLo.zero; rw [h1, bind_ok, h2]; rfl, k1, k2⟩

theorem HiLo.stream_step {h l : Nat → R} {p m n : Nat} {base : Int} (hp : 1 ≤ p) (hm : p ≤ m) {s : HiLo R}
    (H : HiLo.Kept h l p base n s) (i : Int) (hi : i = base + (n + 1 : Nat)) :
    ∃ s', s.stream (Ring.now h m (n + 1)) (Ring.now l m (n + 1)) (p : Int) i (h (n + 1)) (l (n + 1)) = .ok s' ∧
      HiLo.Kept h l p base (n + 1) s' := by
  obtain ⟨e1, h1, k1⟩ := Ext.stream_step repMax_rep less_cmp hp hm H.1 i hi
  obtain ⟨e2, h2, k2⟩ := Ext.stream_step repMin_rep greater_cmp hp hm H.2 i hi
  exact ⟨⟨e1, e2⟩, by unfold HiLo.stream; rw [h1, bind_ok, h2]; rfl, k1, k2⟩

theorem HiLo.stream_init (h l : Nat → R) {p : Nat} {base : Int} (hb : base ≤ 0) (rh rl : Ring R) (hp : 1 ≤ p) (i : Int) (hi : i = base) :
    ∃ s', (HiLo.zero (R := R)).stream rh rl (p : Int) i (h 0) (l 0) = .ok s' ∧ HiLo.Kept h l p base 0 s' := by
  obtain ⟨e1, h1, k1⟩ := Ext.stream_init (x := h) (cmp := cmpLess) repMax_rep hb rh hp i hi
  obtain ⟨e2, h2, k2⟩ := Ext.stream_init (x := l) (cmp := cmpGreater) repMin_rep hb rl hp i hi
  exact ⟨⟨e1, e2⟩, by unfold HiLo.stream HiLo.zero; rw [h1, bind_ok, h2]; rfl, k1, k2⟩

theorem HiLo.Kept.hi {h l : Nat → R} {p : Nat} (hp : 1 ≤ p) {base : Int} {n : Nat} {s : HiLo R} (H : HiLo.Kept h l p base n s) :
    s.hi.val = some (recMax p h n) := H.1.max hp
theorem HiLo.Kept.lo {h l : Nat → R} {p : Nat} (hp : 1 ≤ p) {base : Int} {n : Nat} {s : HiLo R} (H : HiLo.Kept h l p base n s) :
    s.lo.val = some (recMin p l n) := H.2.min hp

/-- The trackers before bar `n`. -/
def HiLo.Before (s0 : HiLo R) (h l : Nat → R) (p : Nat) (base : Int) : Nat → HiLo R → Prop
  | 0, s => s = s0
  | n + 1, s => HiLo.Kept h l p base n s

theorem HiLo.stream_bar {h l : Nat → R} {p m n : Nat} {base : Int} (hb : base ≤ 0) (hp : 1 ≤ p) (hm : p ≤ m) {s : HiLo R}
    (H : HiLo.Before .zero h l p base n s) (i : Int) (hi : i = base + n) :
    ∃ s', s.stream (Ring.now h m n) (Ring.now l m n) (p : Int) i (h n) (l n) = .ok s' ∧ HiLo.Kept h l p base n s' := by
  cases n with
  | zero => obtain rfl : s = .zero := H; exact HiLo.stream_init h l hb _ _ hp i (by simpa using hi)
  | succ n => exact HiLo.stream_step hp hm H i hi

theorem HiLo.batchUp_bar {h l : Nat → R} {p N n : Nat} (hp : 1 ≤ p) (hn : n < N) {s : HiLo R}
    (H : HiLo.Before .zero h l p 0 n s) (i : Int) (hi : i = (n : Int)) :
    ∃ s', s.batchUp (pre h N) (pre l N) (p : Int) i = .ok s' ∧ HiLo.Kept h l p 0 n s' := by
  cases n with
  | zero => obtain rfl : s = .zero := H; exact HiLo.batchUp_init h l hp hn i (by simpa using hi)
  | succ n => exact HiLo.batchUp_step hp hn H i hi

theorem HiLo.take_bar {s0 : HiLo R} (h1 : s0.hi.val = none) (h2 : s0.lo.val = none) {h l : Nat → R} {p n : Nat} {base : Int}
    (hp : 1 ≤ p) (hn : n < p) {s : HiLo R} (H : HiLo.Before s0 h l p base n s) (i : Int) (hi : i = base + n) :
    HiLo.Kept h l p base n (s.take (h n) (l n) i) := by
  cases n with
  | zero =>
    obtain rfl : s = s0 := H
    obtain rfl : i = base := by simpa using hi
    exact HiLo.take_init h l p hp _ _ h1 h2
  | succ n => exact HiLo.take_step hp H hn i hi

/-! ### pc -/

def pcVal (p : Nat) (x : Nat → HL R) (n : Nat) : HL R := ⟨recMax p (fun k => (x k).high) n, recMin p (fun k => (x k).low) n⟩

theorem pcLoops_ordered (p : Int) (xs : List (HL R)) : Phases.Ordered (pcLoops p xs) := by phases_ordered pcLoops
theorem pcPhases_ordered (p : Int) : Phases.Ordered (pcPhases (R := R) p) := by phases_ordered pcPhases

theorem pc_run (o : Nat → R) (p : Nat) (hc : toInt (o 0) = .ok (p : Int)) (hs : pcStart o = .ok ((p - 1 : Nat) : Int)) (hp : 2 ≤ p) :
    Computes pcBatch o (p - 1) fun x j => pcVal p x (p - 1 + j) := by
  intro x N
  unfold pcBatch
  rw [hc, bind_ok, if_neg (by omega), hs, bind_ok]
  refine loopBatch_inv x N (p - 1) _ (by simp) ((pcLoops_ordered _ _).from _)
    (HiLo.Before .unset (fun k => (x k).high) (fun k => (x k).low) p 0) rfl _ ?_
  intro n s hn H
  simp only [barStep, pcLoops, List.find?, map_pre]
  by_cases h : n < p - 1
  · rw [decide_eq_true (by omega)]
    dsimp only
    rw [if_pos h]
    exact ⟨_, rfl, HiLo.take_bar rfl rfl (by omega) (by omega) H _ rfl⟩
  · rw [decide_eq_false (by omega)]
    dsimp only
    rw [if_neg h]
    cases n with
    | zero => omega
    | succ n =>
      obtain ⟨s', h1, h2⟩ := HiLo.batchDown_step (p := p) (by omega) hn H (0 + ((n + 1 : Nat) : Int)) (by omega)
      rw [h1, bind_ok, h2.hi (by omega), h2.lo (by omega)]
      refine ⟨s', ?_, h2⟩
      simp only [getV, bind_ok, pcVal, show p - 1 + (n + 1 - (p - 1)) = n + 1 by omega]
      rfl

theorem pc_stream_run (o : Nat → R) (p : Nat) (hlt : ¬ o 0 < c! 1) (hc : toInt (o 0) = .ok (p : Int))
    (hs : pcStart o = .ok ((p - 1 : Nat) : Int)) (hp : 1 ≤ p) :
    (pc (R := R)).StreamComputes o (p - 1) fun x j => pcVal p x (p - 1 + j) := by
  refine streamComputes_of (I := pc) (k := (p : Int)) (s0 := (⟨.zero, ⟨List.replicate p (c! 0), 0⟩, ⟨List.replicate p (c! 0), 0⟩⟩ : PcS R))
    ?_ (pcPhases_ordered _) (fun x n s => HiLo.Before .zero (fun k => (x k).high) (fun k => (x k).low) p (-((p - 1 : Nat) : Int)) n s.ext ∧
      s.low = Ring.after (fun k => (x k).low) p n ∧ s.high = Ring.after (fun k => (x k).high) p n) (fun x => ⟨rfl, rfl, rfl⟩) ?_
  · simp only [pc, pcNew, if_neg hlt, hs, hc, bind_ok]
    rw [Ring.make_after (fun _ => c! 0) p hp]
    rfl
  · rintro x n ⟨e, low, high⟩ ⟨H, rfl, rfl⟩
    have e1 := Ring.after_set (fun k => (x k).low) p (by omega) n _ rfl
    have e2 := Ring.after_set (fun k => (x k).high) p (by omega) n _ rfl
    simp only [pc, barStep, pcPhases, List.find?]
    by_cases h : n < p - 1
    · rw [decide_eq_true (by omega)]
      dsimp only
      rw [if_pos h, e1, bind_ok, e2, bind_ok]
      exact ⟨_, rfl, HiLo.take_bar (s0 := .zero) rfl rfl (by omega) (by omega) H _ rfl, rfl, rfl⟩
    · rw [decide_eq_false (by omega)]
      dsimp only
      rw [if_neg h, e1, bind_ok, e2, bind_ok]
      obtain ⟨s', h1, h2⟩ := HiLo.stream_bar (p := p) (m := p) (by omega) hp le_rfl H _ rfl
      rw [h1, bind_ok, h2.hi (by omega), h2.lo (by omega)]
      refine ⟨⟨s', Ring.after (fun k => (x k).low) p (n + 1), Ring.after (fun k => (x k).high) p (n + 1)⟩, ?_, h2, rfl, rfl⟩
      simp only [getV, bind_ok, pcVal, show p - 1 + (n - (p - 1)) = n by omega]
      rfl

/-! ### ce -/

def ceTr (x : Nat → HLC R) : Nat → R
  | 0 => (x 0).high - (x 0).low
  | n + 1 => ceRange (x (n + 1)) (x n).close

def ceAtr (p : Nat) (x : Nat → HLC R) : Nat → R
  | 0 => ceTr x 0 * (c! 1 / ((p : Int) : R))
  | n + 1 => if n + 1 < p then ceAtr p x n + ceTr x (n + 1) * (c! 1 / ((p : Int) : R))
    else (ceTr x (n + 1) - ceAtr p x n) * (c! 1 / ((p : Int) : R)) + ceAtr p x n

def ceVal (p : Nat) (coef : R) (x : Nat → HLC R) (n : Nat) : HL R :=
  ⟨recMax p (fun k => (x k).high) n - coef * ceAtr p x n, recMin p (fun k => (x k).low) n + coef * ceAtr p x n⟩

theorem ceLoops_ordered (p : Int) (c : R) (xs : List (HLC R)) : Phases.Ordered (ceLoops p c xs) := by phases_ordered ceLoops
theorem cePhases_ordered (k : Int × R) : Phases.Ordered (cePhases (R := R) k) := by phases_ordered cePhases

def CeInv (p : Nat) (x : Nat → HLC R) : Nat → HiLo R × R → Prop
  | 0, s => s = (.unset, c! 0)
  | n + 1, s => HiLo.Kept (fun k => (x k).high) (fun k => (x k).low) p 0 n s.1 ∧ s.2 = ceAtr p x n

theorem ceOut_ok {h l : Nat → R} {p : Nat} (hp : 1 ≤ p) {base : Int} {n : Nat} {s : HiLo R} (H : HiLo.Kept h l p base n s) (coef a : R) :
    ceOut coef s a = .ok ⟨recMax p h n - coef * a, recMin p l n + coef * a⟩ := by
  unfold ceOut
  rw [H.hi hp, H.lo hp]
  rfl

theorem ceStart_ok {o : Nat → R} {p : Nat} (hc : toInt (o 0) = .ok (p : Int)) (hp : 1 ≤ p) : ceStart o = .ok ((p - 1 : Nat) : Int) := by
  have := toInt_range hc
  unfold ceStart
  rw [hc, bind_ok, i32_ok _ (by omega) (by omega)]
  congr 1; omega

/-- Also for `p = 1`, when the first bar gives no output. -/
theorem ce_run (o : Nat → R) (p : Nat) (hc : toInt (o 0) = .ok (p : Int)) (hp : 1 ≤ p) :
    Computes ceBatch o (max 1 (p - 1)) fun x j => ceVal p (o 1) x (max 1 (p - 1) + j) := by
  intro x N
  unfold ceBatch
  rw [hc, bind_ok, if_neg (by omega), ceStart_ok hc hp, bind_ok]
  refine loopBatch_inv x N (max 1 (p - 1)) _ (by simp; omega) ((ceLoops_ordered _ _ _).from _) (CeInv p x) rfl _ ?_
  intro n s hn H
  simp only [barStep, ceLoops, List.find?, map_pre]
  cases n with
  | zero =>
    rw [decide_eq_true (by omega)]
    dsimp only
    rw [if_pos (by omega)]
    exact ⟨_, rfl, ⟨Ext.set_init repMax_rep _ p hp 0 _ _ rfl rfl, Ext.set_init repMin_rep _ p hp 0 _ _ rfl rfl⟩, rfl⟩
  | succ n =>
    obtain ⟨hk, ha⟩ := H
    rw [decide_eq_false (by omega)]
    have hrd : rd (pre x N) (0 + ((n + 1 : Nat) : Int) - 1) = .ok (x n) := rd_at n (by omega) (by omega)
    have eA : n + 1 < p → s.2 + ceRange (x (n + 1)) (x n).close * (c! 1 / ((p : Int) : R)) = ceAtr p x (n + 1) := by
      intro h; rw [ceAtr, if_pos h, ha]; rfl
    have eB : ¬ n + 1 < p → (ceRange (x (n + 1)) (x n).close - s.2) * (c! 1 / ((p : Int) : R)) + s.2 = ceAtr p x (n + 1) := by
      intro h; rw [ceAtr, if_neg h, ha]; rfl
    by_cases h1 : n + 1 < p - 1
    · rw [decide_eq_true (by omega)]
      dsimp only
      rw [if_pos (by omega), hrd, bind_ok]
      exact ⟨_, rfl, HiLo.take_step hp hk (by omega) _ rfl, eA (by omega)⟩
    rw [decide_eq_false (by omega)]
    have e : max 1 (p - 1) + (n + 1 - max 1 (p - 1)) = n + 1 := by omega
    by_cases h2 : n + 1 < p
    · rw [decide_eq_true (by omega)]
      dsimp only
      rw [if_neg (by omega), hrd, bind_ok]
      have hk' := HiLo.take_step hp hk (by omega) (0 + ((n + 1 : Nat) : Int)) rfl
      rw [eA h2, ceOut_ok hp hk', bind_ok, e]
      exact ⟨_, rfl, hk', rfl⟩
    · rw [decide_eq_false (by omega)]
      dsimp only
      rw [if_neg (by omega), hrd, bind_ok]
      obtain ⟨s', h3, hk'⟩ := HiLo.batchDown_step hp hn hk (0 + ((n + 1 : Nat) : Int)) (by omega)
      rw [h3, bind_ok, eB h2, ceOut_ok hp hk', bind_ok, e]
      exact ⟨_, rfl, hk', rfl⟩

def CeInvS (p : Nat) (x : Nat → HLC R) : Nat → CeS R → Prop
  | 0, s => s = ⟨.zero, c! 0, c! 0, Ring.after (fun k => (x k).high) p 0, Ring.after (fun k => (x k).low) p 0⟩
  | n + 1, s => HiLo.Kept (fun k => (x k).high) (fun k => (x k).low) p (-((p - 1 : Nat) : Int)) n s.ext ∧ s.atr = ceAtr p x n ∧
      s.prevClose = (x n).close ∧ s.high = Ring.after (fun k => (x k).high) p (n + 1) ∧ s.low = Ring.after (fun k => (x k).low) p (n + 1)

theorem ce_stream_run (o : Nat → R) (p : Nat) (hc : toInt (o 0) = .ok (p : Int)) (hp : 2 ≤ p) :
    (ce (R := R)).StreamComputes o (p - 1) fun x j => ceVal p (o 1) x (p - 1 + j) := by
  refine streamComputes_of (I := ce) (k := ((p : Int), o 1))
    (s0 := (⟨.zero, c! 0, c! 0, ⟨List.replicate p (c! 0), 0⟩, ⟨List.replicate p (c! 0), 0⟩⟩ : CeS R))
    ?_ (cePhases_ordered _) (CeInvS p) (fun x => rfl) ?_
  · simp only [ce, ceNew, hc, bind_ok, ceStart_ok hc (by omega)]
    rw [if_neg (by omega), Ring.make_after (fun _ => c! 0) p (by omega)]
    rfl
  · intro x n s H
    simp only [ce, barStep, cePhases, List.find?]
    have e1 := Ring.after_set (fun k => (x k).low) p (by omega) n _ rfl
    have e2 := Ring.after_set (fun k => (x k).high) p (by omega) n _ rfl
    cases n with
    | zero =>
      obtain rfl := H
      rw [decide_eq_true (by omega)]
      dsimp only
      rw [if_pos (by omega), e2, bind_ok, e1, bind_ok]
      exact ⟨_, rfl, ⟨Ext.set_init repMax_rep _ p (by omega) _ _ _ rfl (by simp), Ext.set_init repMin_rep _ p (by omega) _ _ _ rfl (by simp)⟩,
        rfl, rfl, rfl, rfl⟩
    | succ n =>
      obtain ⟨ext, atr, pc, high, low⟩ := s
      obtain ⟨hk, ha, hpc, hh, hl⟩ := H
      dsimp only at hk ha hpc hh hl
      subst ha hpc hh hl
      rw [decide_eq_false (by omega)]
      dsimp only
      have hm := HiLo.stream_step (m := p) (by omega) le_rfl hk (-((p - 1 : Nat) : Int) + ((n + 1 : Nat) : Int)) rfl
      obtain ⟨s', h3, hk'⟩ := hm
      have eA : n + 1 < p → ceAtr p x n + ceRange (x (n + 1)) (x n).close * (c! 1 / ((p : Int) : R)) = ceAtr p x (n + 1) := by
        intro h; rw [ceAtr, if_pos h]; rfl
      have eB : ¬ n + 1 < p → (ceRange (x (n + 1)) (x n).close - ceAtr p x n) * (c! 1 / ((p : Int) : R)) + ceAtr p x n = ceAtr p x (n + 1) := by
        intro h; rw [ceAtr, if_neg h]; rfl
      have e : p - 1 + (n + 1 - (p - 1)) = max (p - 1) (n + 1) := by omega
      refine ⟨⟨s', ceAtr p x (n + 1), (x (n + 1)).close, Ring.after (fun k => (x k).high) p (n + 2),
        Ring.after (fun k => (x k).low) p (n + 2)⟩, ?_, hk', rfl, rfl, rfl, rfl⟩
      by_cases h1 : n + 1 < p - 1
      · rw [decide_eq_true (by omega)]
        dsimp only
        rw [if_pos h1, e2, bind_ok, e1, bind_ok, h3, bind_ok, eA (by omega)]
        rfl
      rw [decide_eq_false (by omega)]
      rw [e, max_eq_right (by omega)]
      by_cases h2 : n + 1 < p
      · rw [decide_eq_true (by omega)]
        dsimp only
        rw [if_neg h1, e2, bind_ok, e1, bind_ok, h3, bind_ok, eA h2, ceOut_ok (by omega) hk', bind_ok]
        rfl
      · rw [decide_eq_false (by omega)]
        dsimp only
        rw [if_neg h1, e2, bind_ok, e1, bind_ok, h3, bind_ok, eB h2, ceOut_ok (by omega) hk', bind_ok]
        rfl

/-! ### ichi -/

def ichiMid (p : Nat) (x : Nat → HL R) (n : Nat) : R :=
  (recMax p (fun k => (x k).high) n + recMin p (fun k => (x k).low) n) / c! 2
def ichiA (p9 p26 : Nat) (x : Nat → HL R) (n : Nat) : R := (ichiMid p9 x n + ichiMid p26 x n) / c! 2

def ichiVal (p9 p26 p52 : Nat) (x : Nat → HL R) (n : Nat) : Ichi R :=
  ⟨ichiMid p9 x n, ichiMid p26 x n, ichiA p9 p26 x (n - p26), ichiMid p52 x (n - p26)⟩

theorem ichiLoops_ordered (a b c : Int) (xs : List (HL R)) : Phases.Ordered (ichiLoops a b c xs) := by phases_ordered ichiLoops
theorem ichiPhases_ordered (k : Int × Int × Int) : Phases.Ordered (ichiPhases (R := R) k) := by phases_ordered ichiPhases

def IchiInv (p9 p26 p52 : Nat) (base : Int) (x : Nat → HL R) (n : Nat) (s : IchiS R) : Prop :=
  HiLo.Before .zero (fun k => (x k).high) (fun k => (x k).low) p9 base n s.e9 ∧
  HiLo.Before .zero (fun k => (x k).high) (fun k => (x k).low) p26 base n s.e26 ∧
  HiLo.Before .zero (fun k => (x k).high) (fun k => (x k).low) p52 base n s.e52 ∧
  s.bufA = Ring.after (ichiA p9 p26 x) (p26 + 1) n ∧ s.bufB = Ring.after (ichiMid p52 x) (p26 + 1) n

theorem ichi_mid {x : Nat → HL R} {p : Nat} (hp : 1 ≤ p) {base : Int} {n : Nat} {s : HiLo R}
    (H : HiLo.Kept (fun k => (x k).high) (fun k => (x k).low) p base n s) : s.mid = .ok (ichiMid p x n) := by
  unfold HiLo.mid
  rw [H.hi hp, H.lo hp]
  rfl

/-- The lines and the delay lines of one bar, once the trackers are up to date. -/
theorem ichi_lines {p9 p26 p52 : Nat} (h9 : 1 ≤ p9) (h26 : 1 ≤ p26) (h52 : 1 ≤ p52) {base : Int} {x : Nat → HL R} {n : Nat} {s : IchiS R}
    (k9 : HiLo.Kept (fun k => (x k).high) (fun k => (x k).low) p9 base n s.e9)
    (k26 : HiLo.Kept (fun k => (x k).high) (fun k => (x k).low) p26 base n s.e26)
    (k52 : HiLo.Kept (fun k => (x k).high) (fun k => (x k).low) p52 base n s.e52)
    (hA : s.bufA = Ring.after (ichiA p9 p26 x) (p26 + 1) n) (hB : s.bufB = Ring.after (ichiMid p52 x) (p26 + 1) n) :
    ∃ s', ichiLines s = .ok (s', ichiMid p9 x n, ichiMid p26 x n) ∧ IchiInv p9 p26 p52 base x (n + 1) s'.step ∧
      (p26 ≤ n → ichiOut p26 s' (ichiMid p9 x n) (ichiMid p26 x n) = .ok (ichiVal p9 p26 p52 x n)) := by
  refine ⟨{ s with bufA := Ring.now (ichiA p9 p26 x) (p26 + 1) n, bufB := Ring.now (ichiMid p52 x) (p26 + 1) n }, ?_, ?_, ?_⟩
  · unfold ichiLines
    rw [ichi_mid h9 k9, bind_ok, ichi_mid h26 k26, bind_ok, hA, Ring.after_set (ichiA p9 p26 x) (p26 + 1) (by omega) n ((ichiMid p9 x n + ichiMid p26 x n) / c! 2) rfl, bind_ok, ichi_mid h52 k52, bind_ok,
      hB, Ring.after_set (ichiMid p52 x) (p26 + 1) (by omega) n (ichiMid p52 x n) rfl, bind_ok]
    rfl
  · exact ⟨k9, k26, k52, rfl, rfl⟩
  · intro h
    unfold ichiOut
    dsimp only
    rw [Ring.now_get _ _ n _ p26 rfl (by omega) h, bind_ok, Ring.now_get _ _ n _ p26 rfl (by omega) h, bind_ok]
    rfl

theorem ichiStart_ok {o : Nat → R} {p9 p26 p52 : Nat} (h0 : toInt (o 0) = .ok (p9 : Int)) (h1 : toInt (o 1) = .ok (p26 : Int))
    (h2 : toInt (o 2) = .ok (p52 : Int)) (h9 : 1 ≤ p9) (h26 : p9 ≤ p26) (h52 : p26 ≤ p52) (hb : p52 - 1 + p26 ≤ 2147483647) :
    ichiStart o = .ok ((p52 - 1 + p26 : Nat) : Int) := by
  unfold ichiStart
  rw [h0, bind_ok, h1, bind_ok, h2, bind_ok]
  simp only [i32_ok _ (show -2147483648 ≤ (p9 : Int) - 1 by omega) (by omega), i32_ok _ (show -2147483648 ≤ (p26 : Int) - 1 by omega) (by omega),
    i32_ok _ (show -2147483648 ≤ (p52 : Int) - 1 by omega) (by omega), i32_ok _ (show -2147483648 ≤ (p52 : Int) - 1 + p26 by omega) (by omega),
    i32_ok _ (show -2147483648 ≤ (p9 : Int) - 1 + p26 by omega) (by omega), bind_ok, pure_eq]
  congr 1
  omega

theorem ichiBad_ok {p9 p26 p52 : Nat} (h9 : 1 ≤ p9) (h26 : p9 ≤ p26) (h52 : p26 ≤ p52) : ichiBad p9 p26 p52 = false := by
  unfold ichiBad
  rw [decide_eq_true (by omega), decide_eq_true (by omega), decide_eq_true (by omega)]
  rfl

theorem ichi_run (o : Nat → R) (p9 p26 p52 : Nat) (h0 : toInt (o 0) = .ok (p9 : Int)) (h1 : toInt (o 1) = .ok (p26 : Int))
    (h2 : toInt (o 2) = .ok (p52 : Int)) (h9 : 1 ≤ p9) (h26 : p9 ≤ p26) (h52 : p26 ≤ p52) (hb : p52 - 1 + p26 ≤ 2147483647)
    (hb' : p26 + 1 ≤ 2147483647) :
    Computes ichiBatch o (p52 - 1 + p26) fun x j => ichiVal p9 p26 p52 x (p52 - 1 + p26 + j) := by
  intro x N
  unfold ichiBatch
  rw [h0, bind_ok, h1, bind_ok, h2, bind_ok, ichiBad_ok h9 h26 h52, if_neg (by simp), i32_ok _ (by omega) (by omega), bind_ok,
    show ((p26 : Int) + 1) = ((p26 + 1 : Nat) : Int) by omega, Ring.make_after (ichiMid p52 x) (p26 + 1) (by omega), bind_ok,
    i32_ok ((p52 : Int) - 1) (by omega) (by omega), bind_ok, i32_ok _ (by omega) (by omega), bind_ok, ichiStart_ok h0 h1 h2 h9 h26 h52 hb, bind_ok]
  refine loopBatch_inv x N (p52 - 1 + p26) _ (by simp) ((ichiLoops_ordered _ _ _ _).from _) (IchiInv p9 p26 p52 0 x)
    ?_ _ ?_
  · exact ⟨rfl, rfl, rfl, rfl, rfl⟩
  intro n s hn H
  simp only [barStep, ichiLoops, List.find?, map_pre]
  obtain ⟨a1, a2, a3, a4, a5⟩ := H
  obtain ⟨t9, b1, k9⟩ := HiLo.batchUp_bar h9 hn a1 (0 + (n : Int)) (by omega)
  obtain ⟨t26, b2, k26⟩ := HiLo.batchUp_bar (by omega) hn a2 (0 + (n : Int)) (by omega)
  obtain ⟨t52, b3, k52⟩ := HiLo.batchUp_bar (by omega) hn a3 (0 + (n : Int)) (by omega)
  have ht : ichiTrack p9 p26 p52 (pre (fun k => (x k).high) N) (pre (fun k => (x k).low) N) (0 + (n : Int)) s =
      .ok { s with e9 := t9, e26 := t26, e52 := t52 } := by
    unfold ichiTrack
    rw [b1, bind_ok, b2, bind_ok, b3, bind_ok]
    rfl
  obtain ⟨s', c1, c2, c3⟩ := ichi_lines (s := { s with e9 := t9, e26 := t26, e52 := t52 }) h9 (by omega) (by omega) k9 k26 k52 a4 a5
  refine ⟨s'.step, ?_, c2⟩
  by_cases h : n < p52 - 1 + p26
  · rw [decide_eq_true (by omega)]
    dsimp only
    rw [if_pos h, ht, bind_ok, c1]
    rfl
  · rw [decide_eq_false (by omega)]
    dsimp only
    rw [if_neg h, ht, bind_ok, c1, bind_ok, c3 (by omega), bind_ok, show p52 - 1 + p26 + (n - (p52 - 1 + p26)) = n by omega]
    rfl

theorem ichi_stream_run (o : Nat → R) (p9 p26 p52 : Nat) (h0 : toInt (o 0) = .ok (p9 : Int)) (h1 : toInt (o 1) = .ok (p26 : Int))
    (h2 : toInt (o 2) = .ok (p52 : Int)) (h9 : 1 ≤ p9) (h26 : p9 ≤ p26) (h52 : p26 ≤ p52) (hb : p52 - 1 + p26 ≤ 2147483647)
    (hb' : p26 + 1 ≤ 2147483647) :
    (ichi (R := R)).StreamComputes o (p52 - 1 + p26) fun x j => ichiVal p9 p26 p52 x (p52 - 1 + p26 + j) := by
  refine streamComputes_of (I := ichi) (k := ((p9 : Int), (p26 : Int), (p52 : Int)))
    (s0 := (⟨⟨.zero, .zero, .zero, ⟨List.replicate (p26 + 1) (c! 0), 0⟩, ⟨List.replicate (p26 + 1) (c! 0), 0⟩⟩,
      ⟨List.replicate p52 (c! 0), 0⟩, ⟨List.replicate p52 (c! 0), 0⟩⟩ : IchiT R))
    ?_ (ichiPhases_ordered _) (fun x n t => IchiInv p9 p26 p52 (-((p52 - 1 + p26 : Nat) : Int)) x n t.s ∧
      t.high = Ring.after (fun k => (x k).high) p52 n ∧ t.low = Ring.after (fun k => (x k).low) p52 n)
    (fun x => ⟨⟨rfl, rfl, rfl, rfl, rfl⟩, rfl, rfl⟩) ?_
  · simp only [ichi, ichiNew, h0, h1, h2, bind_ok, ichiBad_ok h9 h26 h52, ichiStart_ok h0 h1 h2 h9 h26 h52 hb]
    rw [if_neg (by simp), i32_ok _ (by omega) (by omega), bind_ok, show ((p26 : Int) + 1) = ((p26 + 1 : Nat) : Int) by omega,
      Ring.make_after (fun _ => c! 0) (p26 + 1) (by omega), bind_ok, Ring.make_after (fun _ => c! 0) p52 (by omega), bind_ok]
    rfl
  · rintro x n ⟨s, high, low⟩ ⟨⟨a1, a2, a3, a4, a5⟩, rfl, rfl⟩
    have e1 := Ring.after_set (fun k => (x k).low) p52 (by omega) n _ rfl
    have e2 := Ring.after_set (fun k => (x k).high) p52 (by omega) n _ rfl
    simp only [ichi, barStep, ichiPhases, List.find?]
    dsimp only at a1 a2 a3 a4 a5
    obtain ⟨t9, b1, k9⟩ := HiLo.stream_bar (m := p52) (by omega) h9 (by omega) a1 _ rfl
    obtain ⟨t26, b2, k26⟩ := HiLo.stream_bar (m := p52) (by omega) (by omega) (by omega) a2 _ rfl
    obtain ⟨t52, b3, k52⟩ := HiLo.stream_bar (m := p52) (by omega) (by omega) le_rfl a3 _ rfl
    have ht : ichiTrackS ((p9 : Int), (p26 : Int), (p52 : Int)) (Ring.now (fun k => (x k).high) p52 n) (Ring.now (fun k => (x k).low) p52 n)
        (-((p52 - 1 + p26 : Nat) : Int) + n) (x n) s = .ok { s with e9 := t9, e26 := t26, e52 := t52 } := by
      unfold ichiTrackS
      dsimp only
      rw [b1, bind_ok, b2, bind_ok, b3, bind_ok]
      rfl
    obtain ⟨s', c1, c2, c3⟩ := ichi_lines (s := { s with e9 := t9, e26 := t26, e52 := t52 }) h9 (by omega) (by omega) k9 k26 k52 a4 a5
    refine ⟨⟨s'.step, Ring.after (fun k => (x k).high) p52 (n + 1), Ring.after (fun k => (x k).low) p52 (n + 1)⟩, ?_, c2, rfl, rfl⟩
    by_cases h : n < p52 - 1 + p26
    · rw [decide_eq_true (by omega)]
      dsimp only
      rw [if_pos h, e2, bind_ok, e1, bind_ok, ht, bind_ok, c1]
      rfl
    · rw [decide_eq_false (by omega)]
      dsimp only
      rw [if_neg h, e2, bind_ok, e1, bind_ok, ht, bind_ok, c1, bind_ok, c3 (by omega), bind_ok,
        show p52 - 1 + p26 + (n - (p52 - 1 + p26)) = n by omega]
      rfl

/-! ### smi -/

theorem Ext.takeV_step {rep : R → R → Bool} {le : R → R → Prop} (C : Rep rep le) {x : Nat → R} {p : Nat} (hp : 1 ≤ p) {base : Int} {n : Nat}
    {e : Ext R} (h : Ext.Kept le x p base n e) (hx : e.idx ≠ some (base + (n + 1 : Nat) - p)) (i : Int) (hi : i = base + (n + 1 : Nat)) :
    ∃ e', e.takeV rep (x (n + 1)) i = .ok e' ∧ Ext.Kept le x p base (n + 1) e' := by
  refine ⟨e.take rep (x (n + 1)) i, ?_, Ext.take_step C hp h hx i hi⟩
  obtain ⟨a, hv, _⟩ := h
  unfold Ext.takeV Ext.take
  rw [hv]
  rfl

theorem Ext.smi_step {cmp rep : R → R → Bool} {le : R → R → Prop} (C : Rep rep le) (K : Ring.Cmp cmp le) {x : Nat → R} {p N n : Nat}
    (hp : 1 ≤ p) {q : R} (hq : q = ((p : Int) : R)) (hceil : toInt (CMath.ceil q) = .ok (p : Int)) (hn : n + 1 < N) {base : Int} {e : Ext R}
    (h : Ext.Kept le x p base n e) (i pr : Int) (hi : i = (n + 1 : Nat)) (hpr : pr = base + (n + 1 : Nat)) :
    ∃ e', e.smi cmp rep q (pre x N) i pr = .ok e' ∧ Ext.Kept le x p base (n + 1) e' := by
  subst hi hpr
  have h' := h
  obtain ⟨a, hv, hi, h1, h2, h3⟩ := h
  unfold Ext.smi
  rw [hi]
  simp only [getV, bind_ok]
  rw [rd_pre_nat _ _ _ hn, bind_ok]
  have hbeq : ((((base + (a : Int) : Int) : R) == ((base + ((n + 1 : Nat) : Int) : Int) : R) - q) = true) ↔ a + p = n + 1 := by
    rw [beq_iff_eq, hq, ← Int.cast_sub, Int.cast_inj]
    omega
  by_cases hc : a + p = n + 1
  · rw [if_pos (hbeq.2 hc), hceil, bind_ok]
    obtain ⟨s', hs, b, e1, e2, hb, hbest⟩ := forUp_inv (lo := 1) (hi := (p : Int)) (s := (x (n + 1), base + ((n + 1 : Nat) : Int)))
      (f := fun j s => do
        let v ← rd (pre x N) (((n + 1 : Nat) : Int) - j)
        return if cmp s.1 v then (v, base + ((n + 1 : Nat) : Int) - j) else s)
      (fun j s => ∃ b : Nat, s.1 = x (n + 1 - b) ∧ s.2 = base + ((n + 1 : Nat) : Int) - b ∧ (b : Int) < j ∧
        ∀ k : Nat, (k : Int) < j → le (x (n + 1 - k)) (x (n + 1 - b))) (by omega)
      ⟨0, rfl, by simp, by omega, fun k hk => by obtain rfl : k = 0 := by omega
                                                 exact C.rfl' _⟩ (by
        rintro j ⟨sv, si⟩ hj1 hj2 ⟨b, e1, e2, hb, hbest⟩
        dsimp only at e1 e2
        subst e1 e2
        obtain ⟨jn, rfl⟩ := Int.eq_ofNat_of_zero_le (by omega : 0 ≤ j)
        rw [rd_at (x := x) (n + 1 - jn) (by omega) (by omega), bind_ok]
        refine ⟨_, rfl, ?_⟩
        dsimp only
        cases hcmp : cmp (x (n + 1 - b)) (x (n + 1 - jn)) with
        | true =>
          rw [if_pos rfl]
          refine ⟨jn, rfl, rfl, by omega, fun k hk => ?_⟩
          by_cases hkj : k = jn
          · subst hkj; exact C.rfl' _
          · exact C.trans _ _ _ (hbest k (by omega)) (K.of_true _ _ hcmp)
        | false =>
          rw [if_neg (by simp)]
          refine ⟨b, rfl, rfl, by omega, fun k hk => ?_⟩
          by_cases hkj : k = jn
          · subst hkj; exact K.of_false _ _ hcmp
          · exact hbest k (by omega))
    rw [hs, bind_ok]
    refine ⟨_, rfl, n + 1 - b, ?_, ?_, by omega, by omega, fun k hk1 hk2 => ?_⟩
    · dsimp only; rw [e1]
    · dsimp only; rw [e2]; congr 1; omega
    · have := hbest (n + 1 - k) (by omega)
      rwa [show n + 1 - (n + 1 - k) = k by omega] at this
  · rw [if_neg (fun hb => hc (hbeq.1 hb))]
    refine Ext.takeV_step C hp h' ?_ _ rfl
    rw [hi]
    intro he
    have := Option.some.inj he
    omega

/-- The averages at the `t`-th output. -/
def smiE (q : Nat) (r s : R) (x : Nat → HLC R) : Nat → SmiE R
  | 0 => smiFirst (recMax q (fun k => (x k).high) (q - 1)) (recMin q (fun k => (x k).low) (q - 1)) (x (q - 1)).close
  | t + 1 => smiNext r s (smiE q r s x t) (recMax q (fun k => (x k).high) (q - 1 + (t + 1))) (recMin q (fun k => (x k).low) (q - 1 + (t + 1)))
      (x (q - 1 + (t + 1))).close

def smiVal (q : Nat) (r s : R) (x : Nat → HLC R) (t : Nat) : R := smiOut (smiE q r s x t)

theorem smiLoops_ordered (o : Nat → R) (q : Nat) (hq : o 0 = ((q : Int) : R)) (hq2 : 2 ≤ q) (xs : List (HLC R)) :
    Phases.OrderedFrom (-((q - 1 : Nat) : Int)) (smiLoops o (-((q - 1 : Nat) : Int)) xs) := by
  have hb : ∀ p : Int, (((p : Int) : R) == -(o 0) + c! 1) = decide (p = -((q - 1 : Nat) : Int)) := by
    intro p
    rw [Bool.eq_iff_iff, beq_iff_eq, decide_eq_true_iff, hq, ← Int.cast_neg, ← Int.cast_add, Int.cast_inj]
    omega
  refine ⟨?_, fun p _ => ⟨_, List.mem_cons_of_mem _ (List.mem_cons_of_mem _ (List.mem_cons_of_mem _ (List.mem_cons_self ..))), rfl⟩⟩
  simp only [smiLoops, Phases.Leaves, hb, decide_eq_false_iff_not]
  intro a ha ha'
  refine ⟨by omega, fun b hb1 hb2 => ⟨by omega, fun c hc1 hc2 => ⟨by omega, fun d _ hd => by simp at hd⟩⟩⟩

def SmiInv (q : Nat) (r s : R) (base : Int) (x : Nat → HLC R) (n : Nat) (t : SmiS R) : Prop :=
  (1 ≤ n → HiLo.Kept (fun k => (x k).high) (fun k => (x k).low) q base (n - 1) t.ext) ∧
    (q ≤ n → t.ema = some (smiE q r s x (n - q)))

theorem smi_run (o : Nat → R) (q : Nat) (hq : o 0 = ((q : Int) : R)) (hbad : smiBad o = false)
    (hp0 : toInt (-(o 0) + c! 1) = .ok (-((q - 1 : Nat) : Int))) (hs : smiStart o = .ok ((q - 1 : Nat) : Int))
    (hceil : toInt (CMath.ceil (o 0)) = .ok (q : Int)) (hq2 : 2 ≤ q) : Computes smiBatch o (q - 1) (smiVal q (o 1) (o 2)) := by
  intro x N
  unfold smiBatch
  rw [hbad, if_neg (by simp), hp0, bind_ok, hs, bind_ok]
  refine loopBatch_inv x N (q - 1) _ (by simp) (smiLoops_ordered o q hq hq2 _) (SmiInv q (o 1) (o 2) (-((q - 1 : Nat) : Int)) x) ?_ _ ?_
  · exact ⟨fun h => by omega, fun h => by omega⟩
  intro n s hn H
  have hb : ∀ p : Int, (((p : Int) : R) == -(o 0) + c! 1) = decide (p = -((q - 1 : Nat) : Int)) := by
    intro p
    rw [Bool.eq_iff_iff, beq_iff_eq, decide_eq_true_iff, hq, ← Int.cast_neg, ← Int.cast_add, Int.cast_inj]
    omega
  simp only [barStep, smiLoops, List.find?, map_pre, hb]
  cases n with
  | zero =>
    rw [decide_eq_true (by omega)]
    dsimp only
    rw [if_pos (by omega)]
    exact ⟨_, rfl, fun _ => ⟨Ext.set_init repMax_rep _ q (by omega) _ _ _ rfl (by simp), Ext.set_init repMin_rep _ q (by omega) _ _ _ rfl (by simp)⟩,
      fun h => by omega⟩
  | succ n =>
    obtain ⟨hk, he⟩ := H
    have hk := hk (by omega)
    rw [Nat.add_sub_cancel] at hk
    rw [decide_eq_false (by omega)]
    dsimp only
    by_cases h1 : n + 1 < q
    · obtain ⟨t1, b1, k1⟩ := Ext.takeV_step repMax_rep (by omega) hk.1 (by
        obtain ⟨a, _, h2, _⟩ := hk.1
        rw [h2]; intro he; have := Option.some.inj he; omega) _ rfl
      obtain ⟨t2, b2, k2⟩ := Ext.takeV_step repMin_rep (by omega) hk.2 (by
        obtain ⟨a, _, h2, _⟩ := hk.2
        rw [h2]; intro he; have := Option.some.inj he; omega) _ rfl
      by_cases h2 : n + 1 < q - 1
      · rw [decide_eq_true (by omega)]
        dsimp only
        rw [if_pos h2, b1, bind_ok, b2, bind_ok]
        exact ⟨_, rfl, fun _ => ⟨k1, k2⟩, fun h => by omega⟩
      · rw [decide_eq_false (by omega), decide_eq_true (by omega)]
        dsimp only
        have hK : HiLo.Kept (fun k => (x k).high) (fun k => (x k).low) q _ (n + 1) ⟨t1, t2⟩ := ⟨k1, k2⟩
        have e1 := hK.hi (by omega)
        have e2 := hK.lo (by omega)
        dsimp only at e1 e2
        rw [if_neg h2, b1, bind_ok, b2, bind_ok, e1, e2]
        simp only [getV, bind_ok, pure_eq]
        have en : n + 1 = q - 1 := by omega
        refine ⟨⟨⟨t1, t2⟩, some (smiE q (o 1) (o 2) x 0)⟩, ?_, fun _ => hK, fun _ => ?_⟩
        · rw [show n + 1 - (q - 1) = 0 by omega, smiVal, smiE, en]
        · rw [show n + 1 + 1 - q = 0 by omega]
    · rw [decide_eq_false (by omega), decide_eq_false (by omega)]
      dsimp only
      obtain ⟨t1, b1, k1⟩ := Ext.smi_step repMax_rep less_cmp (by omega) hq hceil hn hk.1
        (-((q - 1 : Nat) : Int) + ((n + 1 : Nat) : Int) - -((q - 1 : Nat) : Int)) _ (by omega) rfl
      obtain ⟨t2, b2, k2⟩ := Ext.smi_step repMin_rep greater_cmp (by omega) hq hceil hn hk.2
        (-((q - 1 : Nat) : Int) + ((n + 1 : Nat) : Int) - -((q - 1 : Nat) : Int)) _ (by omega) rfl
      have hK : HiLo.Kept (fun k => (x k).high) (fun k => (x k).low) q _ (n + 1) ⟨t1, t2⟩ := ⟨k1, k2⟩
      have e1 := hK.hi (by omega)
      have e2 := hK.lo (by omega)
      dsimp only at e1 e2
      rw [if_neg (by omega), b1, bind_ok, b2, bind_ok, e1, e2, he (by omega)]
      simp only [getV, bind_ok, pure_eq]
      have en : q - 1 + (n + 1 - q + 1) = n + 1 := by omega
      refine ⟨⟨⟨t1, t2⟩, some (smiE q (o 1) (o 2) x (n + 1 - q + 1))⟩, ?_, fun _ => hK, fun _ => ?_⟩
      · rw [show n + 1 - (q - 1) = n + 1 - q + 1 by omega, smiVal, smiE, en]
      · rw [show n + 1 + 1 - q = n + 1 - q + 1 by omega]

theorem smiPhases_ordered (n : Nat) (k : Int × Int × Int) : Phases.OrderedFrom (-(n : Int)) (smiPhases (R := R) k) := by
  refine ⟨?_, fun p _ => ⟨_, List.mem_cons_of_mem _ (List.mem_cons_of_mem _ (List.mem_cons_self ..)), rfl⟩⟩
  simp only [smiPhases, Phases.Leaves, decide_eq_false_iff_not]
  intro p _ hp
  refine ⟨by omega, fun q _ hq => ⟨by omega, fun r _ hr => by simp at hr⟩⟩

theorem smi_stream_run (o : Nat → R) (q r s : Nat) (h0 : toInt (o 0) = .ok (q : Int)) (h1 : toInt (o 1) = .ok (r : Int))
    (h2 : toInt (o 2) = .ok (s : Int)) (hbad : smiBad o = false) (hs : smiStart o = .ok ((q - 1 : Nat) : Int)) (hq : 1 ≤ q) :
    (smi (R := R)).StreamComputes o (q - 1) (smiVal q ((r : Int) : R) ((s : Int) : R)) := by
  refine streamComputes_of' (I := smi) (k := ((q : Int), (r : Int), (s : Int)))
    (s0 := (⟨⟨.zero, none⟩, ⟨List.replicate q (c! 0), 0⟩, ⟨List.replicate q (c! 0), 0⟩⟩ : SmiT R))
    ?_ (smiPhases_ordered _ _) (fun x n t => HiLo.Before .zero (fun k => (x k).high) (fun k => (x k).low) q (-((q - 1 : Nat) : Int)) n t.s.ext ∧
      (q ≤ n → t.s.ema = some (smiE q ((r : Int) : R) ((s : Int) : R) x (n - q))) ∧
      t.high = Ring.after (fun k => (x k).high) q n ∧ t.low = Ring.after (fun k => (x k).low) q n)
    (fun x => ⟨rfl, fun h => by omega, rfl, rfl⟩) ?_
  · simp only [smi, smiNew, hbad, h0, h1, h2, hs, bind_ok]
    rw [if_neg (by simp), Ring.make_after (fun _ => c! 0) q (by omega), bind_ok]
    rfl
  · rintro x n ⟨⟨e, em⟩, high, low⟩ ⟨H, he, rfl, rfl⟩
    have e1 := Ring.after_set (fun k => (x k).low) q (by omega) n _ rfl
    have e2 := Ring.after_set (fun k => (x k).high) q (by omega) n _ rfl
    simp only [smi, barStep, smiPhases, List.find?]
    dsimp only at H he
    obtain ⟨t, b, hK⟩ := HiLo.stream_bar (m := q) (by omega) hq le_rfl H _ rfl
    by_cases h1 : n < q - 1
    · rw [decide_eq_true (by omega)]
      dsimp only
      rw [if_pos h1, e1, bind_ok, e2, bind_ok, b, bind_ok]
      exact ⟨⟨⟨t, em⟩, _, _⟩, rfl, hK, fun h => by omega, rfl, rfl⟩
    rw [decide_eq_false (by omega)]
    by_cases h2 : n = q - 1
    · rw [decide_eq_true (by omega)]
      dsimp only
      rw [if_neg h1, e1, bind_ok, e2, bind_ok, b, bind_ok, hK.hi hq, hK.lo hq]
      simp only [getV, bind_ok, pure_eq]
      refine ⟨⟨⟨t, some (smiE q ((r : Int) : R) ((s : Int) : R) x 0)⟩, Ring.after (fun k => (x k).high) q (n + 1),
        Ring.after (fun k => (x k).low) q (n + 1)⟩, ?_, hK, fun _ => ?_, rfl, rfl⟩
      · subst h2
        rw [show q - 1 - (q - 1) = 0 by omega]
        rfl
      · rw [show n + 1 - q = 0 by omega]
    · rw [decide_eq_false (by omega)]
      dsimp only
      rw [if_neg h1, e1, bind_ok, e2, bind_ok, b, bind_ok, hK.hi hq, hK.lo hq, he (by omega)]
      simp only [getV, bind_ok, pure_eq]
      have en : q - 1 + (n - q + 1) = n := by omega
      refine ⟨⟨⟨t, some (smiE q ((r : Int) : R) ((s : Int) : R) x (n - q + 1))⟩, Ring.after (fun k => (x k).high) q (n + 1),
        Ring.after (fun k => (x k).low) q (n + 1)⟩, ?_, hK, fun _ => ?_, rfl, rfl⟩
      · rw [show n - (q - 1) = n - q + 1 by omega, smiVal, smiE, en]
        rfl
      · rw [show n + 1 - q = n - q + 1 by omega]

end Field
end Verif
