/- Reasoning rules for `rd`, `wr`, `forUp` (helper lemmas, no model here). -/
import Verif.Core.UB

namespace Verif

variable {α σ : Type _}

@[simp] theorem bind_ok {α β : Type _} (a : α) (f : α → M β) : (Except.ok a >>= f : M β) = f a := rfl
@[simp] theorem bind_error {α β : Type _} (e : UB) (f : α → M β) :
    (Except.error e >>= f : M β) = .error e := rfl
@[simp] theorem pure_eq {α : Type _} (a : α) : (pure a : M α) = .ok a := rfl

@[simp] theorem length_pre (x : Nat → α) (n : Nat) : (pre x n).length = n := by simp [pre]
@[simp] theorem length_seg (x : Nat → α) (o n : Nat) : (seg x o n).length = n := by simp [seg]
@[simp] theorem getElem_pre (x : Nat → α) (n i : Nat) (h : i < (pre x n).length) :
    (pre x n)[i] = x i := by simp [pre]
theorem pre_succ (x : Nat → α) (n : Nat) : pre x (n + 1) = pre x n ++ [x n] := by
  simp [pre, List.range_succ]
@[simp] theorem pre_zero (x : Nat → α) : pre x 0 = [] := rfl
theorem seg_zero_eq_pre (x : Nat → α) (n : Nat) : seg x 0 n = pre x n := by simp [seg, pre]
theorem seg_succ (x : Nat → α) (o n : Nat) : seg x o (n + 1) = x o :: seg x (o + 1) n := by
  simp [seg, List.range_succ_eq_map, List.map_map, Function.comp_def, Nat.add_assoc, Nat.add_comm 1]

theorem pre_add (x : Nat → α) (m n : Nat) : pre x (m + n) = pre x m ++ seg x m n := by
  simp [pre, seg, List.range_add]

theorem rd_pre (x : Nat → α) (n : Nat) (i : Int) (h0 : 0 ≤ i) (h1 : i < n) :
    rd (pre x n) i = .ok (x i.toNat) := by
  unfold rd
  rw [dif_pos ⟨h0, by simp; omega⟩]
  simp

theorem rd_pre_nat (x : Nat → α) (n i : Nat) (h1 : i < n) :
    rd (pre x n) (i : Int) = .ok (x i) := by
  rw [rd_pre x n i (by omega) (by omega)]; simp

theorem rd_zero (x : Nat → α) (n : Nat) (h : 0 < n) : rd (pre x n) 0 = .ok (x 0) := rd_pre_nat x n 0 h

theorem rd_oob (xs : List α) (i : Int) (h : i < 0 ∨ (xs.length : Int) ≤ i) :
    rd xs i = .error .oobRead := by
  unfold rd
  rw [dif_neg]
  omega

theorem wr_ok (cap : Int) (out : List α) (v : α) (h : (out.length : Int) < cap) :
    wr cap out v = .ok (out ++ [v]) := by simp [wr, h]

theorem i32_ok (i : Int) (h : -2147483648 ≤ i) (h' : i ≤ 2147483647) : i32 i = .ok i := by
  simp [i32, h, h']

theorem iter_inv {f : Int → σ → M σ} {I : Int → σ → Prop} (n : Nat) :
    ∀ (i : Int) (s : σ), I i s →
    (∀ j t, i ≤ j → j < i + n → I j t → ∃ t', f j t = .ok t' ∧ I (j + 1) t') →
    ∃ s', iter f n i s = .ok s' ∧ I (i + n) s' := by
  induction n with
  | zero => intro i s h _; exact ⟨s, rfl, by simpa using h⟩
  | succ n ih =>
    intro i s h step
    obtain ⟨t, ht, hI⟩ := step i s (by omega) (by omega) h
    obtain ⟨s', hs', hI'⟩ := ih (i + 1) t hI
      (fun j u h1 h2 hu => step j u (by omega) (by push_cast; omega) hu)
    refine ⟨s', ?_, ?_⟩
    · simp only [iter, ht]; exact hs'
    · have : i + 1 + (n : Int) = i + ((n + 1 : Nat) : Int) := by push_cast; omega
      rwa [this] at hI'

/-- Hoare rule for a counting loop. -/
theorem forUp_inv {f : Int → σ → M σ} (I : Int → σ → Prop) {lo hi : Int} {s : σ}
    (hle : lo ≤ hi) (h0 : I lo s)
    (step : ∀ j t, lo ≤ j → j < hi → I j t → ∃ t', f j t = .ok t' ∧ I (j + 1) t') :
    ∃ s', forUp lo hi s f = .ok s' ∧ I hi s' := by
  have := iter_inv (I := I) (f := f) (hi - lo).toNat lo s h0
    (fun j t h1 h2 ht => step j t h1 (by omega) ht)
  have e : lo + ((hi - lo).toNat : Int) = hi := by omega
  rw [e] at this
  exact this

theorem forUp_empty {f : Int → σ → M σ} {lo hi : Int} {s : σ} (h : hi ≤ lo) :
    forUp lo hi s f = .ok s := by
  have : (hi - lo).toNat = 0 := by omega
  simp [forUp, this, iter]

/-- Loop with a known trajectory: the state before iteration `lo + k` is `T k`. -/
theorem forUp_traj {f : Int → σ → M σ} (lo : Int) (n : Nat) (T : Nat → σ)
    (step : ∀ k, k < n → f (lo + k) (T k) = .ok (T (k + 1))) :
    forUp lo (lo + n) (T 0) f = .ok (T n) := by
  obtain ⟨s', h, hs⟩ := forUp_inv (f := f) (lo := lo) (hi := lo + n) (s := T 0)
    (fun j t => t = T (j - lo).toNat) (by omega) (by simp) (by
      intro j t h1 h2 ht
      subst ht
      refine ⟨_, ?_, rfl⟩
      have := step (j - lo).toNat (by omega)
      have e : lo + ((j - lo).toNat : Int) = j := by omega
      rw [e] at this
      rw [this]
      congr 2
      omega)
  rw [h, hs]; congr 2; omega

/-- Loop from `a` to `b` with a known trajectory indexed by the loop variable. -/
theorem forUp_nat {f : Int → σ → M σ} {a b : Nat} (T : Nat → σ) (hab : a ≤ b)
    (step : ∀ i, a ≤ i → i < b → f (i : Int) (T i) = .ok (T (i + 1))) :
    forUp (a : Int) (b : Int) (T a) f = .ok (T b) := by
  have h := forUp_traj (f := f) (a : Int) (b - a) (fun k => T (a + k)) (by
    intro k hk
    have := step (a + k) (by omega) (by omega)
    simpa [Nat.add_assoc] using this)
  have e : (a : Int) + ((b - a : Nat) : Int) = (b : Int) := by omega
  rw [e] at h
  simpa [show a + (b - a) = b by omega] using h

theorem wr_pre (cap : Int) (out : Nat → α) (n : Nat) (v : α) (h : (n : Int) < cap) (hv : v = out n) :
    wr cap (pre out n) v = .ok (pre out (n + 1)) := by
  rw [wr_ok _ _ _ (by simpa using h), pre_succ, hv]

theorem rd_at {x : Nat → α} {n : Nat} {i : Int} (k : Nat) (h : i = (k : Int)) (hk : k < n) :
    rd (pre x n) i = .ok (x k) := by
  subst h; exact rd_pre_nat x n k hk

theorem bind_err {α β : Type _} {m : M α} {k : α → M β} {e : UB} (h : m = .error e) : (m >>= k) = .error e := by
  subst h; rfl

/-- A loop whose invariant `I` leads to a failure at `m`. -/
theorem forUp_inv_err {f : Int → σ → M σ} (I : Nat → σ → Prop) {lo hi : Int} {s : σ} {e : UB} (a m : Nat)
    (hlo : lo = (a : Int)) (h0 : I a s) (ham : a ≤ m) (hm : (m : Int) < hi)
    (step : ∀ i t, a ≤ i → i < m → I i t → ∃ t', f (i : Int) t = .ok t' ∧ I (i + 1) t')
    (herr : ∀ t, I m t → f (m : Int) t = .error e) : forUp lo hi s f = .error e := by
  subst hlo
  have h1 : ∀ (n i : Nat) (t : σ), a ≤ i → i ≤ m → m < i + n → I i t → iter f n (i : Int) t = .error e := by
    intro n
    induction n with
    | zero => intro i t _ _ _ _; omega
    | succ n ih =>
      intro i t hi1 hi2 hi3 hI
      rw [iter]
      by_cases h : i = m
      · subst h; rw [herr t hI]
      · obtain ⟨t', ht', hI'⟩ := step i t hi1 (by omega) hI
        rw [ht']
        exact ih (i + 1) t' (by omega) (by omega) (by omega) hI'
  exact h1 _ a s (Nat.le_refl a) ham (by omega) h0

/-- A loop that runs along `T` up to `m` and fails there. -/
theorem forUp_err {f : Int → σ → M σ} {lo hi : Int} {s : σ} {e : UB} (a m : Nat) (T : Nat → σ) (hlo : lo = (a : Int))
    (hs : s = T a) (ham : a ≤ m) (hm : (m : Int) < hi)
    (step : ∀ i, a ≤ i → i < m → f (i : Int) (T i) = .ok (T (i + 1))) (herr : f (m : Int) (T m) = .error e) :
    forUp lo hi s f = .error e :=
  forUp_inv_err (fun i t => t = T i) a m hlo hs ham hm (fun i t h1 h2 ht => ⟨_, by rw [ht]; exact step i h1 h2, rfl⟩)
    (fun t ht => by rw [ht]; exact herr)

/-- A counting loop inside a computation, given its trajectory. -/
theorem forUp_bind {β : Type _} {f : Int → σ → M σ} {k : σ → M β} {res : M β} {lo hi : Int} {s : σ}
    (a b : Nat) (T : Nat → σ) (hlo : lo = (a : Int)) (hhi : hi = (b : Int)) (hs : s = T a)
    (hab : a ≤ b) (step : ∀ i, a ≤ i → i < b → f (i : Int) (T i) = .ok (T (i + 1)))
    (hk : k (T b) = res) : (forUp lo hi s f >>= k) = res := by
  subst hlo hhi hs
  rw [forUp_nat T hab step, bind_ok, hk]

theorem iter_add {f : Int → σ → M σ} (m n : Nat) : ∀ (i : Int) (s : σ),
    iter f (m + n) i s = (iter f m i s >>= fun t => iter f n (i + m) t) := by
  induction m with
  | zero => intro i s; simp [iter]
  | succ m ih =>
    intro i s
    rw [show m + 1 + n = (m + n) + 1 by omega]
    simp only [iter]
    cases f i s with
    | error e => rfl
    | ok t =>
      simp only [ih]
      congr 1
      funext t
      congr 1
      push_cast; omega

theorem finish_ok {cap : Int} {out : List α} (h : (out.length : Int) = cap) :
    finish cap out = .ok (.okay, out) := by simp [finish, h]

theorem pre_snoc {out : Nat → α} {n m : Nat} {v : α} (hm : m = n + 1) (hv : v = out n) :
    pre out n ++ [v] = pre out m := by subst hm hv; rw [pre_succ]

theorem asrt_ok {b : Bool} (h : b = true) : asrt b = .ok () := by simp [asrt, h]

/-- Evaluate checked reads and writes; side conditions by linear arithmetic. -/
macro "run_simp" "[" ls:Lean.Parser.Tactic.simpLemma,* "]" : tactic =>
  `(tactic| simp (disch := first | omega | (simp; done) | (simp; omega)) only
      [rd_pre, wr_ok, bind_ok, pure_eq, Int.toNat_natCast, Int.toNat_sub, length_pre, finish_ok, $ls,*])

end Verif
