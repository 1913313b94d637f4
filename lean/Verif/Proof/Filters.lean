/- The recursive filters (law-free recurrences). -/
import Verif.Model.Filters
import Verif.Proof.Loop
import Verif.Proof.Contract
import Verif.Spec.Filters

namespace Verif
open Spec
set_option linter.unusedSectionVars false
set_option linter.unusedSimpArgs false
set_option linter.unusedVariables false
variable {R ρ σ ω : Type}

theorem streamComputes_traj' {I : Indicator R ρ ω} {o : Nat → R} {k : I.κ} {start : Nat} {s0 : I.σ}
    {val : (Nat → ρ) → Nat → ω} (hnew : I.new o = .ok (.made k (-(start : Int)) s0))
    (hord : Phases.OrderedFrom (-(start : Int)) (I.phases k)) (T : (Nat → ρ) → Nat → I.σ) (h0 : ∀ x, s0 = T x 0)
    (step : ∀ (x : Nat → ρ) (n : Nat), barStep (I.phases k) (-(start : Int) + n) (x n) (T x n) =
        .ok (T x (n + 1), if n < start then [] else [val x (n - start)])) :
    I.StreamComputes o start val :=
  streamComputes_of' hnew hord (fun x n s => s = T x n) h0 (fun x n s hs => ⟨_, by rw [hs]; exact step x n, rfl⟩)

/-- A counting loop that fails on the way, inside a computation. -/
theorem forUp_err_bind {β : Type _} {f : Int → σ → M σ} {k : σ → M β} {lo hi : Int} {s : σ} {e : UB} (a m : Nat) (T : Nat → σ)
    (hlo : lo = (a : Int)) (hs : s = T a) (ham : a ≤ m) (hm : (m : Int) < hi)
    (step : ∀ i, a ≤ i → i < m → f (i : Int) (T i) = .ok (T (i + 1))) (herr : f (m : Int) (T m) = .error e) :
    (forUp lo hi s f >>= k) = .error e := by
  rw [forUp_err a m T hlo hs ham hm step herr]; rfl

/-- A loop without condition. -/
theorem single_ordered (f : Int → ρ → σ → M (σ × List ω)) : Phases.Ordered [({ cond := fun _ => true, body := f } : Phase ρ σ ω)] := by
  constructor
  · intro ph hm p h; simp only [List.mem_singleton] at hm; subst hm; cases h
  · intro p; exact ⟨_, List.mem_singleton.2 rfl, rfl⟩

/-- A recursive series: the next value from the new bar, the earlier bars and the earlier values (newest first). -/
def yPast (F : R → List R → List R → R) (x : Nat → R) : Nat → List R
  | 0 => []
  | n + 1 => F (x n) (past x n) (yPast F x n) :: yPast F x n

def yVal (F : R → List R → List R → R) (x : Nat → R) (n : Nat) : R := F (x n) (past x n) (yPast F x n)

theorem past_yVal (F : R → List R → List R → R) (x : Nat → R) (n : Nat) : past (yVal F x) n = yPast F x n := by
  induction n with
  | zero => rfl
  | succ n ih => simp only [past, yPast, ih]; rfl

theorem past_getD (y : Nat → R) (n k : Nat) (d : R) :
    (past y n).getD k d = if k + 1 ≤ n then y (n - (k + 1)) else d := by
  induction n generalizing k with
  | zero => simp [past]
  | succ n ih =>
    cases k with
    | zero => simp [past]
    | succ k =>
      simp only [past, List.getD_cons_succ, ih]
      by_cases h : k + 1 ≤ n
      · rw [if_pos h, if_pos (by omega)]; congr 1; omega
      · rw [if_neg h, if_neg (by omega)]

section
variable [Num R]

theorem ring_past (F : R → List R → List R → R) (x : Nat → R) (m n k : Nat) (i : Int) (hi : i = (k : Int)) (h0 : 1 ≤ k)
    (h1 : k < m) : (Ring.after (yVal F x) m n).get i = .ok ((yPast F x n).getD (k - 1) (c! 0)) := by
  rw [Ring.after_get _ m n i k hi h0 h1, ← past_yVal, past_getD]
  have : k - 1 + 1 = k := by omega
  rw [this]

theorem tab_coef (l : List Int) (hl : l.length = 20) (q : Nat) (h1 : 1 ≤ q) (h2 : q ≤ 20) :
    (tab l (Int.tdiv ((2 * q : Nat) : Int) 2 - 1) : M R) = .ok (coef l q) := by
  have e : Int.tdiv ((2 * q : Nat) : Int) 2 - 1 = ((q - 1 : Nat) : Int) := by
    rw [Int.tdiv_eq_ediv_of_nonneg (by omega)]; omega
  unfold tab coef
  rw [e]
  unfold rd
  have h3 : q - 1 < l.length := by omega
  simp [h3, bind_ok, List.getD_eq_getElem?_getD]

theorem gf_good (q : Nat) (h1 : 1 ≤ q) (h2 : q ≤ 20) : ¬ gfBad ((2 * q : Nat) : Int) := by
  unfold gfBad
  rw [Int.tmod_eq_emod_of_nonneg (by omega)]
  omega

theorem gfBad_of {p : Int} (hp : p < 1 ∨ p % 2 ≠ 0 ∨ 40 < p) : gfBad p := by
  unfold gfBad
  by_cases h : p < 1
  · exact Or.inl h
  · rw [Int.tmod_eq_emod_of_nonneg (by omega)]; exact hp

theorem bfBad_of (o : Nat → R) (h : o 0 < c! 1 ∨ ∃ p, toInt (o 0) = .ok p ∧ 0 ≤ p ∧ (p % 2 ≠ 0 ∨ 40 < p)) : bfBad o = .ok true := by
  unfold bfBad
  by_cases h1 : o 0 < c! 1
  · rw [if_pos h1]
  · obtain ⟨p, hc, h0, hp⟩ := h.resolve_left h1
    rw [if_neg h1, hc, bind_ok, decide_eq_true (by rw [Int.tmod_eq_emod_of_nonneg h0]; exact hp)]; rfl

/-! ### gf1 -/

def gf1F (B0 A1 : R) : R → List R → List R → R := fun v _ ys => (B0 * v + A1 * ys.getD 0 (c! 0)) / (B0 + A1)
def gf1G (B0 A1 : R) : R → List R → List R → R := fun v _ ys => (B0 * v + A1 * ys.getD 0 (c! 0)) * (c! 1 / (B0 + A1))

theorem gf1_run (o : Nat → R) (q : Nat) (h1 : 1 ≤ q) (h2 : q ≤ 20) (hc : toInt (o 0) = .ok ((2 * q : Nat) : Int)) :
    Computes gf1Batch o 0 (yVal (gf1F (coef gf1B0 q) (coef gf1A1 q))) := by
  refine computes_of_loop (p0 := 0) (s0 := (c! 0 : R)) (phs := [⟨fun _ => true, fun _ v f =>
      .ok ((coef gf1B0 q * v + coef gf1A1 q * f) / (coef gf1B0 q + coef gf1A1 q),
        [(coef gf1B0 q * v + coef gf1A1 q * f) / (coef gf1B0 q + coef gf1A1 q)])⟩]) ?_ (Phases.Ordered.from (single_ordered _) 0)
    (fun x n => (yPast (gf1F (coef gf1B0 q) (coef gf1A1 q)) x n).getD 0 (c! 0)) ?_ ?_
  · intro xs
    unfold gf1Batch gf1Start
    rw [hc, bind_ok, if_neg (gf_good q h1 h2), tab_coef gf1B0 rfl q h1 h2, bind_ok, tab_coef gf1A1 rfl q h1 h2, bind_ok]
    rfl
  · intro x; rfl
  · intro x n; rfl

theorem gf1_stream_run (o : Nat → R) (q : Nat) (h1 : 1 ≤ q) (h2 : q ≤ 20) (hc : toInt (o 0) = .ok ((2 * q : Nat) : Int)) :
    (gf1 (R := R)).StreamComputes o 0 (yVal (gf1G (coef gf1B0 q) (coef gf1A1 q))) := by
  refine streamComputes_traj (I := gf1) (k := ⟨((2 * q : Nat) : Int), c! 1 / (coef gf1B0 q + coef gf1A1 q)⟩) (s0 := (c! 0 : R)) ?_
    (single_ordered _) (fun x n => (yPast (gf1G (coef gf1B0 q) (coef gf1A1 q)) x n).getD 0 (c! 0)) (fun x => rfl) ?_
  · show gf1New o = _
    unfold gf1New gf1Start
    simp only [hc, bind_ok, pure_eq]
    rw [if_neg (gf_good q h1 h2), tab_coef gf1B0 rfl q h1 h2, bind_ok, tab_coef gf1A1 rfl q h1 h2, bind_ok]
    rfl
  · intro x n
    simp only [barStep, gf1, gf1Phases, List.find?]
    rw [tab_coef gf1B0 rfl q h1 h2, bind_ok, tab_coef gf1A1 rfl q h1 h2, bind_ok]
    rfl

/-! ### gf2 -/

def gf2F (B0 A1 A2 : R) : R → List R → List R → R := fun v _ ys =>
  (B0 * v + A1 * ys.getD 0 (c! 0) + A2 * ys.getD 1 (c! 0)) * (c! 1 / (B0 + A1 + A2))

theorem gf2_coef (q : Nat) (h1 : 1 ≤ q) (h2 : q ≤ 20) : (gf2Coef ((2 * q : Nat) : Int) : M (Gf2K R)) =
    .ok ⟨coef gf2B0 q, coef gf2A1 q, coef gf2A2 q, c! 1 / (coef gf2B0 q + coef gf2A1 q + coef gf2A2 q)⟩ := by
  unfold gf2Coef
  simp only []
  rw [tab_coef gf2B0 rfl q h1 h2, bind_ok, tab_coef gf2A1 rfl q h1 h2, bind_ok, tab_coef gf2A2 rfl q h1 h2, bind_ok]; rfl

theorem gf2_step (B0 A1 A2 : R) (x : Nat → R) (p : Int) (n : Nat) :
    barStep (gf2Phases ⟨B0, A1, A2, c! 1 / (B0 + A1 + A2)⟩) p (x n) (Ring.after (yVal (gf2F B0 A1 A2) x) 3 n) =
      .ok (Ring.after (yVal (gf2F B0 A1 A2) x) 3 (n + 1), [yVal (gf2F B0 A1 A2) x n]) := by
  simp only [barStep, gf2Phases, List.find?]
  rw [ring_past _ _ 3 n 1 1 rfl (by omega) (by omega), bind_ok, ring_past _ _ 3 n 2 2 rfl (by omega) (by omega), bind_ok,
    Ring.after_set (yVal (gf2F B0 A1 A2) x) 3 (by omega) n _ (by rfl), bind_ok]
  rfl

theorem gf2_run (o : Nat → R) (q : Nat) (h1 : 1 ≤ q) (h2 : q ≤ 20) (hc : toInt (o 0) = .ok ((2 * q : Nat) : Int)) :
    Computes gf2Batch o 0 (yVal (gf2F (coef gf2B0 q) (coef gf2A1 q) (coef gf2A2 q))) := by
  refine computes_of_loop (p0 := 0) (phs := gf2Phases ⟨coef gf2B0 q, coef gf2A1 q, coef gf2A2 q, c! 1 / (coef gf2B0 q + coef gf2A1 q + coef gf2A2 q)⟩)
    (s0 := Ring.after (fun _ => c! 0) 3 0) ?_ (Phases.Ordered.from (single_ordered _) 0)
    (fun x n => Ring.after (yVal (gf2F (coef gf2B0 q) (coef gf2A1 q) (coef gf2A2 q)) x) 3 n) ?_ ?_
  · intro xs
    unfold gf2Batch gf2Start
    rw [hc, bind_ok, if_neg (gf_good q h1 h2), show (3 : Int) = ((3 : Nat) : Int) from rfl, Ring.make_after (fun _ => c! 0) 3 (by omega), bind_ok, gf2_coef q h1 h2, bind_ok]
    rfl
  · intro x
    exact Except.ok.inj ((Ring.make_after _ 3 (by omega)).symm.trans (Ring.make_after _ 3 (by omega)))
  · intro x n; exact gf2_step _ _ _ x _ n

theorem gf2_stream_run (o : Nat → R) (q : Nat) (h1 : 1 ≤ q) (h2 : q ≤ 20) (hc : toInt (o 0) = .ok ((2 * q : Nat) : Int)) :
    (gf2 (R := R)).StreamComputes o 0 (yVal (gf2F (coef gf2B0 q) (coef gf2A1 q) (coef gf2A2 q))) := by
  refine streamComputes_traj (I := gf2) (k := ⟨coef gf2B0 q, coef gf2A1 q, coef gf2A2 q, c! 1 / (coef gf2B0 q + coef gf2A1 q + coef gf2A2 q)⟩)
    (s0 := Ring.after (fun _ => c! 0) 3 0) ?_ (single_ordered _)
    (fun x n => Ring.after (yVal (gf2F (coef gf2B0 q) (coef gf2A1 q) (coef gf2A2 q)) x) 3 n) ?_ ?_
  · show gf2New o = _
    unfold gf2New gf2Start
    simp only [hc, bind_ok, pure_eq]
    rw [if_neg (gf_good q h1 h2), gf2_coef q h1 h2, bind_ok, show (3 : Int) = ((3 : Nat) : Int) from rfl, Ring.make_after (fun _ => c! 0) 3 (by omega), bind_ok]
    rfl
  · intro x
    exact Except.ok.inj ((Ring.make_after _ 3 (by omega)).symm.trans (Ring.make_after _ 3 (by omega)))
  · intro x n; exact gf2_step _ _ _ x _ n

/-! ### gf3 -/

def gf3F (B0 : R) : R → List R → List R → R := fun v _ ys =>
  (B0 * v + B0 * ys.getD 0 (c! 0) + B0 * ys.getD 1 (c! 0) + B0 * ys.getD 2 (c! 0)) * (c! 1 / (B0 + B0 + B0 + B0))

theorem gf3_coef (q : Nat) (h1 : 1 ≤ q) (h2 : q ≤ 20) : (gf3Coef ((2 * q : Nat) : Int) : M (Gf3K R)) =
    .ok ⟨coef gf3B0 q, coef gf3B0 q, coef gf3B0 q, coef gf3B0 q, c! 1 / (coef gf3B0 q + coef gf3B0 q + coef gf3B0 q + coef gf3B0 q)⟩ := by
  unfold gf3Coef
  simp only []
  rw [tab_coef gf3B0 rfl q h1 h2, bind_ok, bind_ok, bind_ok, bind_ok]; rfl

theorem gf3_step (B0 : R) (x : Nat → R) (p : Int) (n : Nat) :
    barStep (gf3Phases ⟨B0, B0, B0, B0, c! 1 / (B0 + B0 + B0 + B0)⟩) p (x n) (Ring.after (yVal (gf3F B0) x) 4 n) =
      .ok (Ring.after (yVal (gf3F B0) x) 4 (n + 1), [yVal (gf3F B0) x n]) := by
  simp only [barStep, gf3Phases, List.find?]
  rw [ring_past _ _ 4 n 1 1 rfl (by omega) (by omega), bind_ok, ring_past _ _ 4 n 2 2 rfl (by omega) (by omega), bind_ok,
    ring_past _ _ 4 n 3 3 rfl (by omega) (by omega), bind_ok, Ring.after_set (yVal (gf3F B0) x) 4 (by omega) n _ (by rfl), bind_ok]
  rfl

theorem gf3_run (o : Nat → R) (q : Nat) (h1 : 1 ≤ q) (h2 : q ≤ 20) (hc : toInt (o 0) = .ok ((2 * q : Nat) : Int)) :
    Computes gf3Batch o 0 (yVal (gf3F (coef gf3B0 q))) := by
  refine computes_of_loop (p0 := 0) (phs := gf3Phases ⟨coef gf3B0 q, coef gf3B0 q, coef gf3B0 q, coef gf3B0 q, c! 1 / (coef gf3B0 q + coef gf3B0 q + coef gf3B0 q + coef gf3B0 q)⟩)
    (s0 := Ring.after (fun _ => c! 0) 4 0) ?_ (Phases.Ordered.from (single_ordered _) 0)
    (fun x n => Ring.after (yVal (gf3F (coef gf3B0 q)) x) 4 n) ?_ ?_
  · intro xs
    unfold gf3Batch gf3Start
    rw [hc, bind_ok, if_neg (gf_good q h1 h2), show (4 : Int) = ((4 : Nat) : Int) from rfl, Ring.make_after (fun _ => c! 0) 4 (by omega), bind_ok, gf3_coef q h1 h2, bind_ok]
    rfl
  · intro x
    exact Except.ok.inj ((Ring.make_after _ 4 (by omega)).symm.trans (Ring.make_after _ 4 (by omega)))
  · intro x n; exact gf3_step _ x _ n

theorem gf3_stream_run (o : Nat → R) (q : Nat) (h1 : 1 ≤ q) (h2 : q ≤ 20) (hc : toInt (o 0) = .ok ((2 * q : Nat) : Int)) :
    (gf3 (R := R)).StreamComputes o 0 (yVal (gf3F (coef gf3B0 q))) := by
  refine streamComputes_traj (I := gf3) (k := ⟨coef gf3B0 q, coef gf3B0 q, coef gf3B0 q, coef gf3B0 q, c! 1 / (coef gf3B0 q + coef gf3B0 q + coef gf3B0 q + coef gf3B0 q)⟩)
    (s0 := Ring.after (fun _ => c! 0) 4 0) ?_ (single_ordered _)
    (fun x n => Ring.after (yVal (gf3F (coef gf3B0 q)) x) 4 n) ?_ ?_
  · show gf3New o = _
    unfold gf3New gf3Start
    simp only [hc, bind_ok, pure_eq]
    rw [if_neg (gf_good q h1 h2), gf3_coef q h1 h2, bind_ok, show (4 : Int) = ((4 : Nat) : Int) from rfl, Ring.make_after (fun _ => c! 0) 4 (by omega), bind_ok]
    rfl
  · intro x
    exact Except.ok.inj ((Ring.make_after _ 4 (by omega)).symm.trans (Ring.make_after _ 4 (by omega)))
  · intro x n; exact gf3_step _ x _ n

/-! ### gf4 -/

def gf4F (B0 A1 A2 A3 A4 : R) : R → List R → List R → R := fun v _ ys =>
  if ys.length < 5 then v
  else (B0 * v + A1 * ys.getD 0 (c! 0) + A2 * ys.getD 1 (c! 0) + A3 * ys.getD 2 (c! 0) + A4 * ys.getD 3 (c! 0)) *
    (c! 1 / (B0 + A1 + A2 + A3 + A4))

theorem yPast_length (F : R → List R → List R → R) (x : Nat → R) (n : Nat) : (yPast F x n).length = n := by
  induction n with
  | zero => rfl
  | succ n ih => simp [yPast, ih]

def gf4K (q : Nat) : Gf4K R := ⟨coef gf4B0 q, coef gf4A1 q, coef gf4A2 q, coef gf4A3 q, coef gf4A4 q,
    c! 1 / (coef gf4B0 q + coef gf4A1 q + coef gf4A2 q + coef gf4A3 q + coef gf4A4 q)⟩
def gf4Y (q : Nat) : (Nat → R) → Nat → R :=
  yVal (gf4F (coef gf4B0 q) (coef gf4A1 q) (coef gf4A2 q) (coef gf4A3 q) (coef gf4A4 q))

theorem gf4_coef (q : Nat) (h1 : 1 ≤ q) (h2 : q ≤ 20) : (gf4Coef ((2 * q : Nat) : Int) : M (Gf4K R)) = .ok (gf4K q) := by
  unfold gf4Coef
  simp only []
  rw [tab_coef gf4B0 rfl q h1 h2, bind_ok, tab_coef gf4A1 rfl q h1 h2, bind_ok, tab_coef gf4A2 rfl q h1 h2, bind_ok,
    tab_coef gf4A3 rfl q h1 h2, bind_ok, tab_coef gf4A4 rfl q h1 h2, bind_ok]; rfl

theorem gf4_copy (q : Nat) (x : Nat → R) (n : Nat) (hn : n < 5) : gf4Copy (Ring.after (gf4Y q x) 5 n) (x n) =
    .ok (Ring.after (gf4Y q x) 5 (n + 1), gf4Y q x n) := by
  have e : gf4Y q x n = x n := by unfold gf4Y yVal gf4F; rw [if_pos (by rw [yPast_length]; omega)]
  unfold gf4Copy
  rw [Ring.after_set _ 5 (by omega) n _ e.symm, bind_ok, e]
  rfl

theorem gf4_filt (q : Nat) (x : Nat → R) (n : Nat) (hn : ¬ n < 5) : gf4Filt (gf4K q) (Ring.after (gf4Y q x) 5 n) (x n) =
    .ok (Ring.after (gf4Y q x) 5 (n + 1), gf4Y q x n) := by
  let ys := yPast (gf4F (coef gf4B0 q) (coef gf4A1 q) (coef gf4A2 q) (coef gf4A3 q) (coef gf4A4 q)) x n
  have e : gf4Y q x n = (coef gf4B0 q * x n + coef gf4A1 q * ys.getD 0 (c! 0) + coef gf4A2 q * ys.getD 1 (c! 0) +
      coef gf4A3 q * ys.getD 2 (c! 0) + coef gf4A4 q * ys.getD 3 (c! 0)) *
      (c! 1 / (coef gf4B0 q + coef gf4A1 q + coef gf4A2 q + coef gf4A3 q + coef gf4A4 q)) := by
    exact if_neg (by rw [yPast_length]; omega)
  unfold gf4Filt
  have r : ∀ (k : Nat) (i : Int), i = (k : Int) → 1 ≤ k → k < 5 → (Ring.after (gf4Y q x) 5 n).get i = _ :=
    fun k i hi h0 h1 => ring_past _ _ 5 n k i hi h0 h1
  rw [r 1 1 rfl (by omega) (by omega), bind_ok, r 2 2 rfl (by omega) (by omega), bind_ok, r 3 3 rfl (by omega) (by omega), bind_ok,
    r 4 4 rfl (by omega) (by omega), bind_ok]
  dsimp only
  rw [Ring.after_set _ 5 (by omega) n _ (by rw [e]; rfl), bind_ok, e]
  rfl

theorem gf4_run (o : Nat → R) (q : Nat) (h1 : 1 ≤ q) (h2 : q ≤ 20) (hc : toInt (o 0) = .ok ((2 * q : Nat) : Int))
    (x : Nat → R) (N : Nat) (hN : 5 ≤ N) : gf4Batch o (pre x N) = .ok (.okay, pre (gf4Y q x) N) := by
  unfold gf4Batch gf4Start
  rw [hc, bind_ok, if_neg (gf_good q h1 h2), show Ring.make 5 = .ok (Ring.after (gf4Y q x) 5 0) from Ring.make_after _ 5 (by omega), bind_ok, gf4_coef q h1 h2, bind_ok]
  simp only [bind_ok, pure_eq, length_pre, hc]
  refine forUp_bind 0 5 (fun n => (Ring.after (gf4Y q x) 5 n, pre (gf4Y q x) n)) rfl rfl rfl (by omega) ?_ ?_
  · intro n ha hb
    rw [rd_pre_nat _ _ _ (by omega), bind_ok, gf4_copy q x n hb, bind_ok, wr_pre _ _ _ _ (by omega) (by rfl), bind_ok]
  · refine forUp_bind 5 N (fun n => (Ring.after (gf4Y q x) 5 n, pre (gf4Y q x) n)) rfl rfl rfl hN ?_ rfl
    intro n ha hb
    rw [rd_pre_nat _ _ _ hb, bind_ok, gf4_filt q x n (by omega), bind_ok, wr_pre _ _ _ _ (by omega) (by rfl), bind_ok]

theorem gf4Phases_ordered (k : Gf4K R) : Phases.Ordered (gf4Phases k) := by
  phases_ordered gf4Phases

theorem gf4_stream_run (o : Nat → R) (q : Nat) (h1 : 1 ≤ q) (h2 : q ≤ 20) (hc : toInt (o 0) = .ok ((2 * q : Nat) : Int)) :
    (gf4 (R := R)).StreamComputes o 0 (gf4Y q) := by
  refine streamComputes_traj (I := gf4) (k := gf4K q) (s0 := Ring.after (fun _ => c! 0) 5 0) ?_ (gf4Phases_ordered _)
    (fun x n => Ring.after (gf4Y q x) 5 n) ?_ ?_
  · show gf4New o = _
    unfold gf4New gf4Start
    simp only [hc, bind_ok, pure_eq]
    rw [if_neg (gf_good q h1 h2), gf4_coef q h1 h2, bind_ok, show (5 : Int) = ((5 : Nat) : Int) from rfl, Ring.make_after (fun _ => c! 0) 5 (by omega), bind_ok]
    rfl
  · intro x
    exact Except.ok.inj ((Ring.make_after _ 5 (by omega)).symm.trans (Ring.make_after _ 5 (by omega)))
  · intro x n
    simp only [barStep, gf4, gf4Phases, List.find?]
    by_cases hn : n < 5
    · rw [decide_eq_true (by omega)]
      simp only []
      rw [gf4_copy q x n hn]; rfl
    · rw [decide_eq_false (by omega)]
      simp only []
      rw [gf4_filt q x n hn]; rfl

/-! ### bf2, bf3 -/

def bf2F (B0 B1 B2 A1 A2 : R) : R → List R → List R → R := fun v xs ys =>
  A1 * ys.getD 0 (c! 0) + A2 * ys.getD 1 (c! 0) + B0 * v + B1 * xs.getD 0 (c! 0) + B2 * xs.getD 1 (c! 0)
def bf3F (B0 B1 B2 B3 A1 A2 A3 : R) : R → List R → List R → R := fun v xs ys =>
  A1 * ys.getD 0 (c! 0) + A2 * ys.getD 1 (c! 0) + A3 * ys.getD 2 (c! 0) + B0 * v + B1 * xs.getD 0 (c! 0) +
    B2 * xs.getD 1 (c! 0) + B3 * xs.getD 2 (c! 0)

def bf2Y (q : Nat) : (Nat → R) → Nat → R :=
  yVal (bf2F (coef bf2B0 q) (coef bf2B1 q) (coef bf2B2 q) (coef bf2A1 q) (coef bf2A2 q))
def bf3Y (q : Nat) : (Nat → R) → Nat → R :=
  yVal (bf3F (coef bf3B0 q) (coef bf3B1 q) (coef bf3B2 q) (coef bf3B3 q) (coef bf3A1 q) (coef bf3A2 q) (coef bf3A3 q))
def bf2K (q : Nat) : Bf2K R := ⟨coef bf2B0 q, coef bf2B1 q, coef bf2B2 q, coef bf2A1 q, coef bf2A2 q⟩
def bf3K (q : Nat) : Bf3K R := ⟨coef bf3B0 q, coef bf3B1 q, coef bf3B2 q, coef bf3B3 q, coef bf3A1 q, coef bf3A2 q, coef bf3A3 q⟩

theorem bf_good (o : Nat → R) (h : ¬ o 0 < c! 1) (q : Nat) (h1 : 1 ≤ q) (h2 : q ≤ 20)
    (hc : toInt (o 0) = .ok ((2 * q : Nat) : Int)) : bfBad o = .ok false := by
  unfold bfBad
  rw [if_neg h, hc, bind_ok, decide_eq_false]
  · rfl
  · rw [Int.tmod_eq_emod_of_nonneg (by omega)]; omega

theorem bf2_coef (o : Nat → R) (q : Nat) (h1 : 1 ≤ q) (h2 : q ≤ 20) (hc : toInt (o 0) = .ok ((2 * q : Nat) : Int)) :
    bf2Coef o = .ok (bf2K q) := by
  unfold bf2Coef
  rw [hc, bind_ok, tab_coef bf2B0 rfl q h1 h2, bind_ok, tab_coef bf2B1 rfl q h1 h2, bind_ok, tab_coef bf2B2 rfl q h1 h2, bind_ok,
    tab_coef bf2A1 rfl q h1 h2, bind_ok, tab_coef bf2A2 rfl q h1 h2, bind_ok]; rfl
theorem bf3_coef (o : Nat → R) (q : Nat) (h1 : 1 ≤ q) (h2 : q ≤ 20) (hc : toInt (o 0) = .ok ((2 * q : Nat) : Int)) :
    bf3Coef o = .ok (bf3K q) := by
  unfold bf3Coef
  rw [hc, bind_ok, tab_coef bf3B0 rfl q h1 h2, bind_ok, tab_coef bf3B1 rfl q h1 h2, bind_ok, tab_coef bf3B2 rfl q h1 h2, bind_ok,
    tab_coef bf3B3 rfl q h1 h2, bind_ok, tab_coef bf3A1 rfl q h1 h2, bind_ok, tab_coef bf3A2 rfl q h1 h2, bind_ok,
    tab_coef bf3A3 rfl q h1 h2, bind_ok]; rfl

theorem bf2Phases_ordered (k : Bf2K R) : Phases.Ordered (bf2Phases k) := by phases_ordered bf2Phases
theorem bf3Phases_ordered (k : Bf3K R) : Phases.Ordered (bf3Phases k) := by phases_ordered bf3Phases

def bf2T (F : R → List R → List R → R) (x : Nat → R) (n : Nat) : Bf2S R :=
  ⟨(yPast F x n).getD 0 (c! 0), (yPast F x n).getD 1 (c! 0), (past x n).getD 0 (c! 0), (past x n).getD 1 (c! 0)⟩
def bf3T (F : R → List R → List R → R) (x : Nat → R) (n : Nat) : Bf3S R :=
  ⟨(yPast F x n).getD 0 (c! 0), (yPast F x n).getD 1 (c! 0), (yPast F x n).getD 2 (c! 0), (past x n).getD 0 (c! 0),
    (past x n).getD 1 (c! 0), (past x n).getD 2 (c! 0)⟩

theorem bf2_step (q s : Nat) (x : Nat → R) (n : Nat) : barStep (bf2Phases (bf2K q)) (-(s : Int) + n) (x n)
    (bf2T (bf2F (coef bf2B0 q) (coef bf2B1 q) (coef bf2B2 q) (coef bf2A1 q) (coef bf2A2 q)) x n) =
    .ok (bf2T (bf2F (coef bf2B0 q) (coef bf2B1 q) (coef bf2B2 q) (coef bf2A1 q) (coef bf2A2 q)) x (n + 1),
      if n < s then [] else [bf2Y q x ((n - s) + s)]) := by
  simp only [barStep, bf2Phases, List.find?]
  by_cases hn : n < s
  · rw [decide_eq_true (by omega), if_pos hn]; rfl
  · rw [decide_eq_false (by omega), if_neg hn, Nat.sub_add_cancel (by omega)]; rfl
theorem bf3_step (q s : Nat) (x : Nat → R) (n : Nat) : barStep (bf3Phases (bf3K q)) (-(s : Int) + n) (x n)
    (bf3T (bf3F (coef bf3B0 q) (coef bf3B1 q) (coef bf3B2 q) (coef bf3B3 q) (coef bf3A1 q) (coef bf3A2 q) (coef bf3A3 q)) x n) =
    .ok (bf3T (bf3F (coef bf3B0 q) (coef bf3B1 q) (coef bf3B2 q) (coef bf3B3 q) (coef bf3A1 q) (coef bf3A2 q) (coef bf3A3 q)) x (n + 1),
      if n < s then [] else [bf3Y q x ((n - s) + s)]) := by
  simp only [barStep, bf3Phases, List.find?]
  by_cases hn : n < s
  · rw [decide_eq_true (by omega), if_pos hn]; rfl
  · rw [decide_eq_false (by omega), if_neg hn, Nat.sub_add_cancel (by omega)]; rfl

theorem bf2_run (o : Nat → R) (h : ¬ o 0 < c! 1) (q : Nat) (h1 : 1 ≤ q) (h2 : q ≤ 20)
    (hc : toInt (o 0) = .ok ((2 * q : Nat) : Int)) (s : Nat) (hs : bf2Start o = .ok (s : Int)) :
    Computes bf2Batch o s (fun x j => bf2Y q x (j + s)) := by
  refine computes_of_loop (p0 := -(s : Int)) (phs := bf2Phases (bf2K q)) (s0 := ⟨c! 0, c! 0, c! 0, c! 0⟩) ?_
    (Phases.Ordered.from (bf2Phases_ordered _) _) (bf2T _) (fun x => rfl) (bf2_step q s)
  intro xs
  unfold bf2Batch
  rw [bf_good o h q h1 h2 hc, bind_ok, bf2_coef o q h1 h2 hc, hs]
  rfl
theorem bf3_run (o : Nat → R) (h : ¬ o 0 < c! 1) (q : Nat) (h1 : 1 ≤ q) (h2 : q ≤ 20)
    (hc : toInt (o 0) = .ok ((2 * q : Nat) : Int)) (s : Nat) (hs : bf3Start o = .ok (s : Int)) :
    Computes bf3Batch o s (fun x j => bf3Y q x (j + s)) := by
  refine computes_of_loop (p0 := -(s : Int)) (phs := bf3Phases (bf3K q)) (s0 := ⟨c! 0, c! 0, c! 0, c! 0, c! 0, c! 0⟩) ?_
    (Phases.Ordered.from (bf3Phases_ordered _) _) (bf3T _) (fun x => rfl) (bf3_step q s)
  intro xs
  unfold bf3Batch
  rw [bf_good o h q h1 h2 hc, bind_ok, bf3_coef o q h1 h2 hc, hs]
  rfl
theorem bf2_stream_run (o : Nat → R) (h : ¬ o 0 < c! 1) (q : Nat) (h1 : 1 ≤ q) (h2 : q ≤ 20)
    (hc : toInt (o 0) = .ok ((2 * q : Nat) : Int)) (s : Nat) (hs : bf2Start o = .ok (s : Int)) :
    (bf2 (R := R)).StreamComputes o s (fun x j => bf2Y q x (j + s)) := by
  refine streamComputes_traj (I := bf2) (k := bf2K q) (s0 := ⟨c! 0, c! 0, c! 0, c! 0⟩) ?_
    (bf2Phases_ordered _) (bf2T _) (fun x => rfl) (bf2_step q s)
  show bf2New o = _
  unfold bf2New
  rw [bf_good o h q h1 h2 hc, bind_ok, bf2_coef o q h1 h2 hc, hs]
  rfl
theorem bf3_stream_run (o : Nat → R) (h : ¬ o 0 < c! 1) (q : Nat) (h1 : 1 ≤ q) (h2 : q ≤ 20)
    (hc : toInt (o 0) = .ok ((2 * q : Nat) : Int)) (s : Nat) (hs : bf3Start o = .ok (s : Int)) :
    (bf3 (R := R)).StreamComputes o s (fun x j => bf3Y q x (j + s)) := by
  refine streamComputes_traj (I := bf3) (k := bf3K q) (s0 := ⟨c! 0, c! 0, c! 0, c! 0, c! 0, c! 0⟩) ?_
    (bf3Phases_ordered _) (bf3T _) (fun x => rfl) (bf3_step q s)
  show bf3New o = _
  unfold bf3New
  rw [bf_good o h q h1 h2 hc, bind_ok, bf3_coef o q h1 h2 hc, hs]
  rfl

/-! ### ssmooth, roof -/

def ssF : R → List R → List R → R := fun v xs ys =>
  ssC1 * (v + xs.getD 0 (c! 0)) / c! 2 + ssC2 * ys.getD 0 (c! 0) + ssC3 * ys.getD 1 (c! 0)

theorem ssmooth_step (x : Nat → R) (p : Int) (n : Nat) : barStep ssmoothPhases p (x n)
    (⟨(past x n).getD 0 (c! 0), (yPast ssF x n).getD 0 (c! 0), (yPast ssF x n).getD 1 (c! 0)⟩ : SsS R) =
    .ok (⟨(past x (n + 1)).getD 0 (c! 0), (yPast ssF x (n + 1)).getD 0 (c! 0), (yPast ssF x (n + 1)).getD 1 (c! 0)⟩, [yVal ssF x n]) := rfl

theorem ssmooth_run (o : Nat → R) : Computes ssmoothBatch o 0 (yVal ssF) :=
  computes_of_loop (p0 := 0) (phs := ssmoothPhases) (s0 := ⟨c! 0, c! 0, c! 0⟩) (fun xs => rfl)
    (Phases.Ordered.from (single_ordered _) _) (fun x n => ⟨(past x n).getD 0 (c! 0), (yPast ssF x n).getD 0 (c! 0), (yPast ssF x n).getD 1 (c! 0)⟩)
    (fun x => rfl) (fun x n => ssmooth_step x _ n)
theorem ssmooth_stream_run (o : Nat → R) : (ssmooth (R := R)).StreamComputes o 0 (yVal ssF) :=
  streamComputes_traj (I := ssmooth) (k := ()) (s0 := ⟨c! 0, c! 0, c! 0⟩) rfl (single_ordered _)
    (fun x n => ⟨(past x n).getD 0 (c! 0), (yPast ssF x n).getD 0 (c! 0), (yPast ssF x n).getD 1 (c! 0)⟩)
    (fun x => rfl) (fun x n => ssmooth_step x _ n)

def roofF : R → List R → List R → R := fun v xs ys =>
  (c! 1 - roofAlpha / c! 2) * (c! 1 - roofAlpha / c! 2) * (v - c! 2 * xs.getD 0 (c! 0) + xs.getD 1 (c! 0)) +
    c! 2 * (c! 1 - roofAlpha) * ys.getD 0 (c! 0) - (c! 1 - roofAlpha) * (c! 1 - roofAlpha) * ys.getD 1 (c! 0)

def roofT (x : Nat → R) (n : Nat) : RoofS R :=
  ⟨(past x n).getD 0 (c! 0), (past x n).getD 1 (c! 0), (past (yVal roofF x) n).getD 0 (c! 0), (past (yVal roofF x) n).getD 1 (c! 0),
    (yPast ssF (yVal roofF x) n).getD 0 (c! 0), (yPast ssF (yVal roofF x) n).getD 1 (c! 0)⟩

theorem roof_step (x : Nat → R) (p : Int) (n : Nat) :
    barStep roofPhases p (x n) (roofT x n) = .ok (roofT x (n + 1), [yVal ssF (yVal roofF x) n]) := by
  have e : yVal roofF x n = roofF (x n) (past x n) (past (yVal roofF x) n) := by rw [past_yVal]; rfl
  have e1 : roofT x (n + 1) = ⟨x n, (past x n).getD 0 (c! 0), yVal roofF x n, (past (yVal roofF x) n).getD 0 (c! 0),
      yVal ssF (yVal roofF x) n, (yPast ssF (yVal roofF x) n).getD 0 (c! 0)⟩ := rfl
  have e2 : yVal ssF (yVal roofF x) n = ssF (yVal roofF x n) (past (yVal roofF x) n) (yPast ssF (yVal roofF x) n) := rfl
  rw [e1, e2, e]
  rfl

theorem roof_run (o : Nat → R) : Computes roofBatch o 0 (fun x => yVal ssF (yVal roofF x)) :=
  computes_of_loop (p0 := 0) (phs := roofPhases) (s0 := ⟨c! 0, c! 0, c! 0, c! 0, c! 0, c! 0⟩) (fun xs => rfl)
    (Phases.Ordered.from (single_ordered _) _) roofT (fun x => rfl) (fun x n => roof_step x _ n)
theorem roof_stream_run (o : Nat → R) : (roof (R := R)).StreamComputes o 0 (fun x => yVal ssF (yVal roofF x)) :=
  streamComputes_traj (I := roof) (k := ()) (s0 := ⟨c! 0, c! 0, c! 0, c! 0, c! 0, c! 0⟩) rfl
    (single_ordered _) roofT (fun x => rfl) (fun x n => roof_step x _ n)

/-! ### lf -/

def lf0F (g : R) : R → List R → List R → R := fun v _ ys => (c! 1 - g) * v + g * ys.getD 0 (c! 0)
def lfF (g : R) : R → List R → List R → R := fun v xs ys => -g * v + xs.getD 0 (c! 0) + g * ys.getD 0 (c! 0)
def lfL0 (g : R) (x : Nat → R) := yVal (lf0F g) x
def lfL1 (g : R) (x : Nat → R) := yVal (lfF g) (lfL0 g x)
def lfL2 (g : R) (x : Nat → R) := yVal (lfF g) (lfL1 g x)
def lfL3 (g : R) (x : Nat → R) := yVal (lfF g) (lfL2 g x)
def lfY (g : R) (x : Nat → R) (n : Nat) : R := (lfL0 g x n + c! 2 * lfL1 g x n + c! 2 * lfL2 g x n + lfL3 g x n) / c! 6

def lfT (g : R) (x : Nat → R) (n : Nat) : LfS R :=
  ⟨(past (lfL0 g x) n).getD 0 (c! 0), (past (lfL1 g x) n).getD 0 (c! 0), (past (lfL2 g x) n).getD 0 (c! 0), (past (lfL3 g x) n).getD 0 (c! 0)⟩

theorem lf_step (g : R) (x : Nat → R) (p : Int) (n : Nat) :
    barStep (lfPhases g) p (x n) (lfT g x n) = .ok (lfT g x (n + 1), [lfY g x n]) := by
  have e0 : lfL0 g x n = (c! 1 - g) * x n + g * (past (lfL0 g x) n).getD 0 (c! 0) := by unfold lfL0; rw [past_yVal]; rfl
  have e1 : lfL1 g x n = -g * lfL0 g x n + (past (lfL0 g x) n).getD 0 (c! 0) + g * (past (lfL1 g x) n).getD 0 (c! 0) := by
    unfold lfL1; rw [past_yVal]; rfl
  have e2 : lfL2 g x n = -g * lfL1 g x n + (past (lfL1 g x) n).getD 0 (c! 0) + g * (past (lfL2 g x) n).getD 0 (c! 0) := by
    unfold lfL2; rw [past_yVal]; rfl
  have e3 : lfL3 g x n = -g * lfL2 g x n + (past (lfL2 g x) n).getD 0 (c! 0) + g * (past (lfL3 g x) n).getD 0 (c! 0) := by
    unfold lfL3; rw [past_yVal]; rfl
  have e4 : lfT g x (n + 1) = ⟨lfL0 g x n, lfL1 g x n, lfL2 g x n, lfL3 g x n⟩ := rfl
  rw [e4]
  unfold lfY
  rw [e3, e2, e1, e0]
  rfl

theorem lf_run (o : Nat → R) (h : ¬ o 0 < c! 0) : Computes lfBatch o 0 (lfY (o 0)) :=
  computes_of_loop (p0 := 0) (phs := lfPhases (o 0)) (s0 := ⟨c! 0, c! 0, c! 0, c! 0⟩) (fun xs => by
      unfold lfBatch; simp only []; rw [if_neg h]; rfl)
    (Phases.Ordered.from (single_ordered _) _) (lfT (o 0)) (fun x => rfl) (fun x n => lf_step _ x _ n)
theorem lf_stream_run (o : Nat → R) (h : ¬ o 0 < c! 0) : (lf (R := R)).StreamComputes o 0 (lfY (o 0)) :=
  streamComputes_traj (I := lf) (k := o 0) (s0 := ⟨c! 0, c! 0, c! 0, c! 0⟩) (by
      show lfNew o = _; unfold lfNew; simp only []; rw [if_neg h]; rfl) (single_ordered _)
    (lfT (o 0)) (fun x => rfl) (fun x n => lf_step _ x _ n)

/-! ### rema -/

def remaF (alpha lambda : R) : R → List R → List R → R := fun v _ ys =>
  match ys with
  | [] => v
  | [r] => (v - r) * alpha + r
  | r :: r1 :: _ => (r * (c! 1 + c! 2 * lambda) + alpha * (v - r) - lambda * r1) / (c! 1 + lambda)

def remaY (o : Nat → R) : (Nat → R) → Nat → R := yVal (remaF (c! 2 / (c! 1 + o 0)) (o 1))

theorem remaPhases_ordered (k : RemaK R) : Phases.OrderedFrom 0 (remaPhases k) := by
  refine ⟨?_, fun p _ => ⟨_, List.mem_cons_of_mem _ (List.mem_cons_of_mem _ (List.mem_cons_self ..)), rfl⟩⟩
  simp only [remaPhases, Phases.Leaves, decide_eq_false_iff_not]
  refine fun p h1 h2 => ⟨by omega, fun p' h3 h4 => ⟨by omega, fun _ _ h5 => by simp at h5⟩⟩

theorem rema_step (al la : R) (s : Nat → Option R × Option R) (x : Nat → R) (n : Nat)
    (h1 : 1 ≤ n → (s n).1 = (yPast (remaF al la) x n)[0]?) (h2 : 2 ≤ n → (s n).2 = (yPast (remaF al la) x n)[1]?)
    (e1 : (s (n + 1)).1 = (yPast (remaF al la) x (n + 1))[0]?)
    (e2 : (s (n + 1)).2 = if n = 0 then (s n).2 else (yPast (remaF al la) x (n + 1))[1]?) :
    barStep (remaPhases ⟨la, al⟩) (0 + n) (x n) (s n) = .ok (s (n + 1), [yVal (remaF al la) x n]) := by
  simp only [barStep, remaPhases, List.find?]
  match n with
  | 0 =>
    rw [decide_eq_true (by omega)]
    simp only []
    have : s 1 = (some (x 0), (s 0).2) := Prod.ext (by rw [e1]; rfl) (by rw [e2, if_pos rfl])
    rw [this]; rfl
  | 1 =>
    rw [decide_eq_false (by omega), decide_eq_true (by omega)]
    simp only []
    rw [h1 (by omega)]
    have : s 2 = (_, _) := Prod.ext e1 (e2.trans (if_neg (by omega)))
    rw [this]; rfl
  | n + 2 =>
    rw [decide_eq_false (by omega), decide_eq_false (by omega)]
    simp only []
    have : s (n + 2) = (_, _) := Prod.ext (h1 (by omega)) (h2 (by omega))
    rw [this]
    have : s (n + 2 + 1) = (_, _) := Prod.ext e1 (e2.trans (if_neg (by omega)))
    rw [this]; rfl

theorem rema_run (o : Nat → R) (h : ¬ remaBad o) : Computes remaBatch o 0 (remaY o) := by
  refine computes_of_loop (p0 := 0) (phs := remaPhases ⟨o 1, c! 2 / (c! 1 + o 0)⟩) (s0 := (none, none)) ?_ (remaPhases_ordered _)
    (fun x n => ((yPast (remaF (c! 2 / (c! 1 + o 0)) (o 1)) x n)[0]?, (yPast (remaF (c! 2 / (c! 1 + o 0)) (o 1)) x n)[1]?)) (fun x => rfl) ?_
  · intro xs; unfold remaBatch; rw [if_neg h]; rfl
  · intro x n
    exact rema_step _ _ (fun n => ((yPast (remaF (c! 2 / (c! 1 + o 0)) (o 1)) x n)[0]?, (yPast (remaF (c! 2 / (c! 1 + o 0)) (o 1)) x n)[1]?)) x n
      (fun _ => rfl) (fun _ => rfl) rfl (by
        by_cases hn : n = 0
        · subst hn; rfl
        · rw [if_neg hn])

theorem rema_stream_run (o : Nat → R) (h : ¬ remaBad o) : (rema (R := R)).StreamComputes o 0 (remaY o) := by
  let S : (Nat → R) → Nat → Option R × Option R := fun x n =>
    (if n = 0 then some (c! 0) else (yPast (remaF (c! 2 / (c! 1 + o 0)) (o 1)) x n)[0]?,
     if n ≤ 1 then some (c! 0) else (yPast (remaF (c! 2 / (c! 1 + o 0)) (o 1)) x n)[1]?)
  refine streamComputes_traj' (I := rema) (k := ⟨o 1, c! 2 / (c! 1 + o 0)⟩) (s0 := (some (c! 0), some (c! 0))) ?_ (remaPhases_ordered _) S (fun x => rfl) ?_
  · show remaNew o = _; unfold remaNew; rw [if_neg h]; rfl
  · intro x n
    refine rema_step _ _ (S x) x n (fun hn => ?_) (fun hn => ?_) rfl ?_
    · show (if n = 0 then _ else _) = _; rw [if_neg (by omega)]
    · show (if n ≤ 1 then _ else _) = _; rw [if_neg (by omega)]
    · show (if n + 1 ≤ 1 then _ else _) = _
      by_cases hn : n = 0
      · subst hn; rfl
      · rw [if_neg (by omega), if_neg hn]

end

end Verif
