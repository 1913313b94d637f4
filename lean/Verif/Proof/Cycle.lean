/- Loop lemmas of hd, arsi and mama. -/
import Verif.Model.Cycle
import Verif.Proof.Filters
import Verif.Proof.Loop
import Verif.Proof.Flow

set_option linter.unusedSectionVars false
set_option linter.unusedSimpArgs false
set_option linter.unusedVariables false

namespace Verif
variable {R : Type} [Num R]

/-- The value `k` bars before bar `t`; zero before the first bar. -/
def back (h : Nat → R) (t k : Nat) : R := if k ≤ t then h (t - k) else c! 0

/-- `d` zeros, then `h`. -/
def delay (d : Nat) (h : Nat → R) (k : Nat) : R := if k < d then c! 0 else h (k - d)

theorem delay_at (d : Nat) (h : Nat → R) (t : Nat) : delay d h (d + t) = h t := by
  simp [delay]

theorem ring_delay_get (d : Nat) (h : Nat → R) (t : Nat) (i : Int) (k : Nat) (hi : i = (k : Int)) (hk : k < 7) :
    (Ring.now (delay d h) 7 (d + t)).get i = .ok (back h t k) := by
  rw [Ring.now_get_any _ _ _ i k hi hk]
  congr 1
  unfold delay back
  by_cases h1 : k ≤ t
  · rw [if_pos (by omega), if_neg (by omega), if_pos h1, show d + t - k - d = t - k by omega]
  · rw [if_neg h1]
    by_cases h2 : k ≤ d + t
    · rw [if_pos h2, if_pos (by omega)]
    · rw [if_neg h2]

namespace Ring2

def after (h : Nat → R) (t : Nat) : Ring2 R := ⟨back h t 2, back h t 1⟩
def now (h : Nat → R) (t : Nat) : Ring2 R := ⟨h t, back h t 1⟩

theorem get_one (r : Ring2 R) : r.get 1 = .ok r.a2 := rfl
theorem now_step (h : Nat → R) (t : Nat) : (now h t).step = after h (t + 1) := by
  simp only [now, step, after, back]
  congr 1
  by_cases h1 : 1 ≤ t
  · rw [if_pos h1, if_pos (by omega), show t + 1 - 2 = t - 1 by omega]
  · rw [if_neg h1, if_neg (by omega)]
theorem after_zero (h : Nat → R) : (make : Ring2 R) = after h 0 := rfl

end Ring2

/-- The ten signals at one bar. -/
structure HdV (R : Type) where
  sm : R
  det : R
  i1 : R
  q1 : R
  i2 : R
  q2 : R
  re : R
  im : R
  per : R
  sp : R

def hdLag (H : List (HdV R)) (f : HdV R → R) (k : Nat) : R :=
  match H[k - 1]? with
  | some e => f e
  | none => c! 0

def hdHilb (f : HdV R → R) (H : List (HdV R)) (v : R) : R :=
  c! 962 / c! 10000 * v + c! 5769 / c! 10000 * hdLag H f 2 - c! 5769 / c! 10000 * hdLag H f 4 - c! 962 / c! 10000 * hdLag H f 6

/-- The period before smoothing. -/
def hdClamp (per prev : R) : R :=
  stdMin (stdMax (stdMax (stdMin per (c! 15 / c! 10 * prev)) (c! 67 / c! 100 * prev)) (c! 6)) (c! 50)

/-- The signals of the next bar from those of the earlier ones (newest first). -/
def hdNext (turn : R) (H : List (HdV R)) (v : R) : HdV R :=
  let adj := c! 75 / c! 1000 * hdLag H (·.per) 1 + c! 54 / c! 100
  let det := hdHilb (·.sm) H v * adj
  let q1 := hdHilb (·.det) H det * adj
  let i1 := hdLag H (·.det) 3
  let jI := hdHilb (·.i1) H i1 * adj
  let jQ := hdHilb (·.q1) H q1 * adj
  let i2 := c! 2 / c! 10 * (i1 - jQ) + c! 8 / c! 10 * hdLag H (·.i2) 1
  let q2 := c! 2 / c! 10 * (q1 + jI) + c! 8 / c! 10 * hdLag H (·.q2) 1
  let re := c! 2 / c! 10 * (i2 * hdLag H (·.i2) 1 + q2 * hdLag H (·.q2) 1) + c! 8 / c! 10 * hdLag H (·.re) 1
  let im := c! 2 / c! 10 * (i2 * hdLag H (·.q2) 1 - q2 * hdLag H (·.i2) 1) + c! 8 / c! 10 * hdLag H (·.im) 1
  let per := c! 2 / c! 10 * hdClamp (hdCand turn im re (hdLag H (·.per) 2)) (hdLag H (·.per) 1) + c! 8 / c! 10 * hdLag H (·.per) 1
  ⟨v, det, i1, q1, i2, q2, re, im, per, c! 33 / c! 100 * per + c! 67 / c! 100 * hdLag H (·.sp) 1⟩

def hdHist (turn : R) (v : Nat → R) : Nat → List (HdV R)
  | 0 => []
  | t + 1 => hdNext turn (hdHist turn v t) (v t) :: hdHist turn v t

/-- The signals at bar `t` of the smoothed prices `v`. -/
def hdSig (turn : R) (v : Nat → R) (t : Nat) : HdV R := hdNext turn (hdHist turn v t) (v t)

theorem hdHist_get (turn : R) (v : Nat → R) (t k : Nat) :
    (hdHist turn v t)[k]? = if k < t then some (hdSig turn v (t - 1 - k)) else none := by
  induction t generalizing k with
  | zero => simp [hdHist]
  | succ t ih =>
    cases k with
    | zero => simp [hdHist, hdSig]
    | succ k =>
      rw [hdHist, List.getElem?_cons_succ, ih]
      by_cases h : k < t
      · rw [if_pos h, if_pos (by omega), show t + 1 - 1 - (k + 1) = t - 1 - k by omega]
      · rw [if_neg h, if_neg (by omega)]

theorem hdLag_eq (turn : R) (v : Nat → R) (f : HdV R → R) (t k : Nat) (hk : 1 ≤ k) :
    hdLag (hdHist turn v t) f k = back (fun t => f (hdSig turn v t)) t k := by
  unfold hdLag back
  rw [hdHist_get]
  by_cases h : k ≤ t
  · rw [if_pos (by omega), if_pos h, show t - 1 - (k - 1) = t - k by omega]
  · rw [if_neg (by omega), if_neg h]

/-- The buffers after `t` bars of the main loop, when the rings were stepped `d` times before it. -/
def HdS.after (d : Nat) (g : Nat → HdV R) (t : Nat) : HdS R :=
  ⟨Ring.after (delay d fun k => (g k).sm) 7 (d + t), Ring.after (delay d fun k => (g k).det) 7 (d + t),
   Ring.after (delay d fun k => (g k).i1) 7 (d + t), Ring.after (delay d fun k => (g k).q1) 7 (d + t),
   Ring2.after (fun k => (g k).i2) t, Ring2.after (fun k => (g k).q2) t, Ring2.after (fun k => (g k).re) t,
   Ring2.after (fun k => (g k).im) t, Ring2.after (fun k => (g k).per) t, Ring2.after (fun k => (g k).sp) t⟩

def HdS.now (d : Nat) (g : Nat → HdV R) (t : Nat) : HdS R :=
  ⟨Ring.now (delay d fun k => (g k).sm) 7 (d + t), Ring.now (delay d fun k => (g k).det) 7 (d + t),
   Ring.now (delay d fun k => (g k).i1) 7 (d + t), Ring.now (delay d fun k => (g k).q1) 7 (d + t),
   Ring2.now (fun k => (g k).i2) t, Ring2.now (fun k => (g k).q2) t, Ring2.now (fun k => (g k).re) t,
   Ring2.now (fun k => (g k).im) t, Ring2.now (fun k => (g k).per) t, Ring2.now (fun k => (g k).sp) t⟩

theorem HdS.now_step (d : Nat) (g : Nat → HdV R) (t : Nat) : (HdS.now d g t).step = HdS.after d g (t + 1) := by
  simp only [HdS.now, HdS.step, HdS.after, Ring2.now_step, Ring.now_step]
  rfl

theorem HdS.make_after (g : Nat → HdV R) : HdS.make = .ok (HdS.after 0 g 0) := by
  simp only [HdS.make]
  rw [show (7 : Int) = ((7 : Nat) : Int) from rfl, Ring.make_after (fun _ => (c! 0 : R)) 7 (by omega)]
  rfl

theorem hilbert_now (d : Nat) (h : Nat → R) (t : Nat) : hilbert (Ring.now (delay d h) 7 (d + t)) =
    .ok (c! 962 / c! 10000 * h t + c! 5769 / c! 10000 * back h t 2 - c! 5769 / c! 10000 * back h t 4 -
      c! 962 / c! 10000 * back h t 6) := by
  unfold hilbert
  rw [Ring.now_cur _ 7 (by omega), delay_at, ring_delay_get d h t 2 2 rfl (by omega),
    ring_delay_get d h t 4 4 rfl (by omega), ring_delay_get d h t 6 6 rfl (by omega)]
  rfl

/-- The recurrences of the ten signals. -/
structure HdEqs (turn : R) (v : Nat → R) (g : Nat → HdV R) (t : Nat) : Prop where
  sm : (g t).sm = v t
  det : (g t).det = (c! 962 / c! 10000 * (g t).sm + c! 5769 / c! 10000 * back (fun k => (g k).sm) t 2 -
    c! 5769 / c! 10000 * back (fun k => (g k).sm) t 4 - c! 962 / c! 10000 * back (fun k => (g k).sm) t 6) *
    (c! 75 / c! 1000 * back (fun k => (g k).per) t 1 + c! 54 / c! 100)
  q1 : (g t).q1 = (c! 962 / c! 10000 * (g t).det + c! 5769 / c! 10000 * back (fun k => (g k).det) t 2 -
    c! 5769 / c! 10000 * back (fun k => (g k).det) t 4 - c! 962 / c! 10000 * back (fun k => (g k).det) t 6) *
    (c! 75 / c! 1000 * back (fun k => (g k).per) t 1 + c! 54 / c! 100)
  i1 : (g t).i1 = back (fun k => (g k).det) t 3
  i2 : (g t).i2 = c! 2 / c! 10 * ((g t).i1 - (c! 962 / c! 10000 * (g t).q1 + c! 5769 / c! 10000 * back (fun k => (g k).q1) t 2 -
    c! 5769 / c! 10000 * back (fun k => (g k).q1) t 4 - c! 962 / c! 10000 * back (fun k => (g k).q1) t 6) *
    (c! 75 / c! 1000 * back (fun k => (g k).per) t 1 + c! 54 / c! 100)) + c! 8 / c! 10 * back (fun k => (g k).i2) t 1
  q2 : (g t).q2 = c! 2 / c! 10 * ((g t).q1 + (c! 962 / c! 10000 * (g t).i1 + c! 5769 / c! 10000 * back (fun k => (g k).i1) t 2 -
    c! 5769 / c! 10000 * back (fun k => (g k).i1) t 4 - c! 962 / c! 10000 * back (fun k => (g k).i1) t 6) *
    (c! 75 / c! 1000 * back (fun k => (g k).per) t 1 + c! 54 / c! 100)) + c! 8 / c! 10 * back (fun k => (g k).q2) t 1
  re : (g t).re = c! 2 / c! 10 * ((g t).i2 * back (fun k => (g k).i2) t 1 + (g t).q2 * back (fun k => (g k).q2) t 1) +
    c! 8 / c! 10 * back (fun k => (g k).re) t 1
  im : (g t).im = c! 2 / c! 10 * ((g t).i2 * back (fun k => (g k).q2) t 1 - (g t).q2 * back (fun k => (g k).i2) t 1) +
    c! 8 / c! 10 * back (fun k => (g k).im) t 1
  per : (g t).per = c! 2 / c! 10 * hdClamp (hdCand turn (g t).im (g t).re (back (fun k => (g k).per) t 2))
      (back (fun k => (g k).per) t 1) +
    c! 8 / c! 10 * back (fun k => (g k).per) t 1
  sp : (g t).sp = c! 33 / c! 100 * (g t).per + c! 67 / c! 100 * back (fun k => (g k).sp) t 1

theorem hdSig_eqs (turn : R) (v : Nat → R) (t : Nat) : HdEqs turn v (hdSig turn v) t := by
  have l := fun f k hk => hdLag_eq turn v f t k hk
  constructor
  · rfl
  · simp only [← l _ 1 (by omega), ← l _ 2 (by omega), ← l _ 4 (by omega), ← l _ 6 (by omega)]; rfl
  · simp only [← l _ 1 (by omega), ← l _ 2 (by omega), ← l _ 4 (by omega), ← l _ 6 (by omega)]; rfl
  · simp only [← l _ 3 (by omega)]; rfl
  · simp only [← l _ 1 (by omega), ← l _ 2 (by omega), ← l _ 4 (by omega), ← l _ 6 (by omega)]; rfl
  · simp only [← l _ 1 (by omega), ← l _ 2 (by omega), ← l _ 4 (by omega), ← l _ 6 (by omega)]; rfl
  · simp only [← l _ 1 (by omega)]; rfl
  · simp only [← l _ 1 (by omega)]; rfl
  · simp only [← l _ 1 (by omega), ← l _ 2 (by omega)]; rfl
  · simp only [← l _ 1 (by omega)]; rfl

theorem hdCore_after (turn : R) (v : Nat → R) (d t : Nat) :
    hdCore turn (v t) (HdS.after d (hdSig turn v) t) = .ok (HdS.now d (hdSig turn v) t) := by
  have e := hdSig_eqs turn v t
  generalize hdSig turn v = g at e ⊢
  unfold hdCore
  simp only [HdS.after]
  rw [Ring2.get_one, bind_ok]
  rw [Ring.after_set (delay d fun k => (g k).sm) 7 (by omega) (d + t) (v t) (by rw [delay_at, e.sm]), bind_ok, hilbert_now, bind_ok]
  dsimp only [Ring2.after]
  rw [← e.det, Ring.after_set (delay d fun k => (g k).det) 7 (by omega) (d + t) (g t).det (by rw [delay_at]), bind_ok, hilbert_now, bind_ok]
  rw [← e.q1, Ring.after_set (delay d fun k => (g k).q1) 7 (by omega) (d + t) (g t).q1 (by rw [delay_at]), bind_ok,
    ring_delay_get d (fun k => (g k).det) t 3 3 rfl (by omega), bind_ok, ← e.i1,
    Ring.after_set (delay d fun k => (g k).i1) 7 (by omega) (d + t) (g t).i1 (by rw [delay_at]), bind_ok, hilbert_now, bind_ok,
    hilbert_now, bind_ok, Ring.now_cur _ 7 (by omega), delay_at, bind_ok, Ring.now_cur _ 7 (by omega), delay_at, bind_ok]
  simp only [Ring2.get_one, bind_ok, Ring2.set, Ring2.cur]
  rw [← e.i2, ← e.q2, ← e.re, ← e.im]
  simp only [pure_eq]
  have ep := e.per
  unfold hdClamp at ep
  rw [← ep, ← e.sp]
  rfl

/-! ### hd -/

/-- The weighted price of the `t`-th bar of a main loop that starts at bar `d`. -/
def hdSmooth (d : Nat) (x : Nat → R) (t : Nat) : R := smooth4 (x (d + t)) (x (d + t - 1)) (x (d + t - 2)) (x (d + t - 3))

def hdVal (x : Nat → R) (t : Nat) : R := (hdSig twoPi (hdSmooth 5 x) t).sp

def hdTraj (m : Nat) (x : Nat → R) (n : Nat) : HdP R :=
  ⟨HdS.after 0 (hdSig twoPi (hdSmooth 5 x)) (n - 5), Ring.after x m n⟩

theorem hdLoops_ordered (k : Int) : Phases.Ordered (hdLoops (R := R) k) := by phases_ordered hdLoops

theorem hd_step (first : Int) (x : Nat → R) (n : Nat) :
    barStep (hdLoops first) (first - 5 + n) (x n) (hdTraj 4 x n) =
      .ok (hdTraj 4 x (n + 1), if n < 5 then [] else [hdVal x (n - 5)]) := by
  simp only [barStep, hdLoops, List.find?]
  by_cases hn : n < 5
  · rw [decide_eq_true (by omega), if_pos hn]
    simp only [hdTraj, Ring.after_set x 4 (by omega) n (x n) rfl, bind_ok, pure_eq, Ring.now_step, show n - 5 = 0 by omega,
      show n + 1 - 5 = 0 by omega]
  · obtain ⟨t, rfl⟩ : ∃ t, n = 5 + t := ⟨n - 5, by omega⟩
    rw [decide_eq_false (by omega), if_neg hn]
    simp only [hdTraj, Ring.after_set x 4 (by omega) (5 + t) (x (5 + t)) rfl, bind_ok, pure_eq,
      Ring.now_cur x 4 (by omega) (5 + t), Ring.now_get x 4 (5 + t) 1 1 rfl (by omega) (by omega),
      Ring.now_get x 4 (5 + t) 2 2 rfl (by omega) (by omega), Ring.now_get x 4 (5 + t) 3 3 rfl (by omega) (by omega),
      show 5 + t - 5 = t by omega, show 5 + t + 1 - 5 = t + 1 by omega]
    have h := hdCore_after twoPi (hdSmooth 5 x) 0 t
    rw [show smooth4 (x (5 + t)) (x (5 + t - 1)) (x (5 + t - 2)) (x (5 + t - 3)) = hdSmooth 5 x t from rfl, h, bind_ok, HdS.now_step]
    rfl

theorem hdMake_ok (m : Nat) (hm : 0 < m) (x : Nat → R) :
    (do let s : HdP R := ⟨← HdS.make, ← Ring.make (m : Int)⟩; return s : M (HdP R)) = .ok (hdTraj m x 0) := by
  rw [HdS.make_after (hdSig twoPi (hdSmooth 5 x)), bind_ok, Ring.make_after x m hm, bind_ok]
  rfl

theorem HdS.after_start (g h : Nat → HdV R) : HdS.after 0 g 0 = HdS.after 0 h 0 :=
  Except.ok.inj ((HdS.make_after g).symm.trans (HdS.make_after h))

theorem hdTraj_zero (m : Nat) (hm : 0 < m) (x y : Nat → R) : hdTraj m x 0 = hdTraj m y 0 := by
  have e : Ring.after x m 0 = Ring.after y m 0 := Except.ok.inj ((Ring.make_after x m hm).symm.trans (Ring.make_after y m hm))
  unfold hdTraj
  rw [e, HdS.after_start _ (hdSig twoPi (hdSmooth 5 y))]

theorem hd_run (o : Nat → R) : Computes hdBatch o 5 (hdVal (R := R)) := by
  refine computes_of_loop (phs := hdLoops 5) (p0 := 0) (s0 := hdTraj 4 (fun _ => c! 0) 0) ?_ ((hdLoops_ordered _).from _)
    (hdTraj 4) (fun x => hdTraj_zero 4 (by omega) (fun _ => c! 0) x) (fun x n => ?_)
  · intro xs
    unfold hdBatch hdStart
    rw [bind_ok, HdS.make_after (hdSig twoPi (hdSmooth 5 fun _ => (c! 0 : R))), bind_ok, show (4 : Int) = ((4 : Nat) : Int) from rfl,
      Ring.make_after (fun _ => (c! 0 : R)) 4 (by omega), bind_ok]
    rfl
  · exact hd_step 5 x n

theorem hd_stream_run (o : Nat → R) : (hd (R := R)).StreamComputes o 5 (hdVal (R := R)) := by
  refine streamComputes_traj (I := hd) (k := ()) (s0 := hdTraj 4 (fun _ => c! 0) 0) ?_ (hdLoops_ordered _)
    (hdTraj 4) (fun x => hdTraj_zero 4 (by omega) (fun _ => c! 0) x) (fun x n => ?_)
  · simp only [hd, hdNew, hdStart]
    rw [HdS.make_after (hdSig twoPi (hdSmooth 5 fun _ => (c! 0 : R))), bind_ok, show (4 : Int) = ((4 : Nat) : Int) from rfl,
      Ring.make_after (fun _ => (c! 0 : R)) 4 (by omega), bind_ok]
    rfl
  · have := hd_step 0 x n
    rwa [show (0 : Int) - 5 + n = -((5 : Nat) : Int) + n by omega] at this

/-! ### arsi -/

/-- Sums of the gains and of the losses of the `m` bars up to bar `i`. -/
def arsiUp (x : Nat → R) (i : Nat) : Nat → R
  | 0 => c! 0
  | m + 1 => arsiUp x i m + stdMax (c! 0) (x (i - m) - x (i - m - 1))
def arsiDown (x : Nat → R) (i : Nat) : Nat → R
  | 0 => c! 0
  | m + 1 => arsiDown x i m + -(stdMin (c! 0) (x (i - m) - x (i - m - 1)))

def arsiLen (cyc : R) (x : Nat → R) (t : Nat) : Nat := (min (CMath.trunc (cyc * hdVal x t)) ((5 + t : Nat) : Int)).toNat

def arsiVal (cyc : R) (x : Nat → R) (t : Nat) : R :=
  arsiOut (arsiUp x (5 + t) (arsiLen cyc x t)) (arsiDown x (5 + t) (arsiLen cyc x t))

theorem arsi_sums (x : Nat → R) (i : Nat) (n : Int) (f : Int → M R) (h : ∀ k : Nat, (k : Int) ≤ n → k ≤ i → f k = .ok (x (i - k))) :
    (forUp 0 (min n i) ((c! 0 : R), (c! 0 : R)) fun count t => do
      let d := (← f count) - (← f (count + 1))
      return (t.1 + stdMax (c! 0) d, t.2 + -(stdMin (c! 0) d))) =
    .ok (arsiUp x i (min n i).toNat, arsiDown x i (min n i).toNat) := by
  by_cases hn : n < 0
  · rw [forUp_empty (by omega), show (min n i).toNat = 0 by omega]; rfl
  · obtain ⟨m, hm⟩ : ∃ m : Nat, min n i = (m : Int) := ⟨(min n i).toNat, by omega⟩
    rw [hm, Int.toNat_natCast]
    refine (forUp_nat (a := 0) (b := m) (fun k => (arsiUp x i k, arsiDown x i k)) (by omega) fun k _ h2 => ?_)
    rw [h k (by omega) (by omega), bind_ok, show (k : Int) + 1 = ((k + 1 : Nat) : Int) by omega, h (k + 1) (by omega) (by omega), bind_ok]
    rfl

/-- The state of the loop of `ti_arsi` before bar `n`. -/
def arsiTraj (c : R) (x : Nat → R) (n : Nat) : HdS R × List R :=
  (HdS.after 0 (hdSig twoPi (hdSmooth 5 x)) (n - 5), pre (arsiVal c x) (n - 5))

/-- arsi on the series where every length fits in `int`. -/
theorem arsi_run_at (o : Nat → R) (h0 : ¬ o 0 ≤ c! 0) (x : Nat → R) (N : Nat)
    (hi : ∀ t, 5 + t < N → toInt (o 0 * hdVal x t) = .ok (CMath.trunc (o 0 * hdVal x t))) :
    arsiBatch o (pre x N) = .ok (.okay, pre (arsiVal (o 0) x) (N - 5)) := by
  unfold arsiBatch arsiStart
  rw [if_neg h0, bind_ok, HdS.make_after (hdSig twoPi (hdSmooth 5 x)), bind_ok, length_pre]
  by_cases hN : N ≤ 5
  · rw [forUp_empty (by omega), bind_ok, show N - 5 = 0 by omega]; rfl
  refine forUp_bind 5 N (arsiTraj (o 0) x) rfl rfl rfl (by omega) ?_ rfl
  intro n h1 h2
  obtain ⟨t, rfl⟩ : ∃ t, n = 5 + t := ⟨n - 5, by omega⟩
  rw [rd_pre_nat _ _ _ h2, bind_ok, rd_at (5 + t - 1) (by omega) (by omega), bind_ok,
    rd_at (5 + t - 2) (by omega) (by omega), bind_ok, rd_at (5 + t - 3) (by omega) (by omega), bind_ok]
  simp only [arsiTraj, show 5 + t - 5 = t by omega, show 5 + t + 1 - 5 = t + 1 by omega]
  rw [show smooth4 (x (5 + t)) (x (5 + t - 1)) (x (5 + t - 2)) (x (5 + t - 3)) = hdSmooth 5 x t from rfl,
    hdCore_after, bind_ok, show (HdS.now 0 (hdSig twoPi (hdSmooth 5 x)) t).sp.cur = hdVal x t from rfl, hi t h2, bind_ok]
  have hs := arsi_sums x (5 + t) (CMath.trunc (o 0 * hdVal x t)) (fun c => rd (pre x N) (((5 + t : Nat) : Int) - c))
    (fun k _ hk => rd_at (5 + t - k) (by omega) (by omega))
  simp only [Int.sub_sub] at hs ⊢
  rw [hs, bind_ok]
  refine (bind_ok' (wr_pre _ (arsiVal (o 0) x) t _ (by omega) rfl)).trans ?_
  rw [HdS.now_step]
  rfl

/-- arsi on a series where a length does not fit. -/
theorem arsi_run_err (o : Nat → R) (h0 : ¬ o 0 ≤ c! 0) (x : Nat → R) (N m : Nat) (hm : 5 + m < N)
    (hi : ∀ t, t < m → toInt (o 0 * hdVal x t) = .ok (CMath.trunc (o 0 * hdVal x t)))
    (he : toInt (o 0 * hdVal x m) = .error .intRange) : arsiBatch o (pre x N) = .error .intRange := by
  unfold arsiBatch arsiStart
  rw [if_neg h0, bind_ok, HdS.make_after (hdSig twoPi (hdSmooth 5 x)), bind_ok, length_pre]
  refine bind_err (forUp_inv_err (fun n s => s = arsiTraj (o 0) x n) 5 (5 + m) rfl rfl (by omega) (by omega) ?_ ?_)
  · rintro n _ h1 h2 rfl
    refine ⟨_, ?_, rfl⟩
    obtain ⟨t, rfl⟩ : ∃ t, n = 5 + t := ⟨n - 5, by omega⟩
    rw [rd_pre_nat _ _ _ (by omega), bind_ok, rd_at (5 + t - 1) (by omega) (by omega), bind_ok,
      rd_at (5 + t - 2) (by omega) (by omega), bind_ok, rd_at (5 + t - 3) (by omega) (by omega), bind_ok]
    simp only [arsiTraj, show 5 + t - 5 = t by omega, show 5 + t + 1 - 5 = t + 1 by omega]
    rw [show smooth4 (x (5 + t)) (x (5 + t - 1)) (x (5 + t - 2)) (x (5 + t - 3)) = hdSmooth 5 x t from rfl,
      hdCore_after, bind_ok, show (HdS.now 0 (hdSig twoPi (hdSmooth 5 x)) t).sp.cur = hdVal x t from rfl, hi t (by omega), bind_ok]
    have hs := arsi_sums x (5 + t) (CMath.trunc (o 0 * hdVal x t)) (fun c => rd (pre x N) (((5 + t : Nat) : Int) - c))
      (fun k _ hk => rd_at (5 + t - k) (by omega) (by omega))
    simp only [Int.sub_sub] at hs ⊢
    rw [hs, bind_ok]
    refine (bind_ok' (wr_pre _ (arsiVal (o 0) x) t _ (by omega) rfl)).trans ?_
    rw [HdS.now_step]
    rfl
  · rintro _ rfl
    rw [rd_pre_nat _ _ _ (by omega), bind_ok, rd_at (5 + m - 1) (by omega) (by omega), bind_ok,
      rd_at (5 + m - 2) (by omega) (by omega), bind_ok, rd_at (5 + m - 3) (by omega) (by omega), bind_ok]
    simp only [arsiTraj, show 5 + m - 5 = m by omega]
    rw [show smooth4 (x (5 + m)) (x (5 + m - 1)) (x (5 + m - 2)) (x (5 + m - 3)) = hdSmooth 5 x m from rfl,
      hdCore_after, bind_ok, show (HdS.now 0 (hdSig twoPi (hdSmooth 5 x)) m).sp.cur = hdVal x m from rfl, he]
    rfl

theorem toInt_dich (v : R) : toInt v = .ok (CMath.trunc v) ∨ toInt v = .error .intRange := by
  unfold toInt i32
  split
  · exact Or.inl rfl
  · exact Or.inr rfl

theorem arsi_dich (o : Nat → R) (h0 : ¬ o 0 ≤ c! 0) (x : Nat → R) (N : Nat) :
    arsiBatch o (pre x N) = .ok (.okay, pre (arsiVal (o 0) x) (N - 5)) ∨ arsiBatch o (pre x N) = .error .intRange := by
  by_cases h : ∀ t, 5 + t < N → toInt (o 0 * hdVal x t) = .ok (CMath.trunc (o 0 * hdVal x t))
  · exact Or.inl (arsi_run_at o h0 x N h)
  · right
    classical
    have hex : ∃ t, 5 + t < N ∧ ¬ toInt (o 0 * hdVal x t) = .ok (CMath.trunc (o 0 * hdVal x t)) := by
      by_contra hn
      exact h fun t ht => by
        by_contra hc
        exact hn ⟨t, ht, hc⟩
    have hs := Nat.find_spec hex
    refine arsi_run_err o h0 x N (Nat.find hex) hs.1 (fun t ht => ?_) ((toInt_dich _).resolve_left hs.2)
    by_contra hc
    exact Nat.find_min hex ht ⟨by omega, hc⟩

theorem arsi_run (o : Nat → R) (h0 : ¬ o 0 ≤ c! 0)
    (hi : ∀ (x : Nat → R) t, toInt (o 0 * hdVal x t) = .ok (CMath.trunc (o 0 * hdVal x t))) :
    Computes arsiBatch o 5 (arsiVal (o 0)) := fun x N => arsi_run_at o h0 x N (fun t _ => hi x t)

theorem arsiPhases_ordered (k : R) : Phases.Ordered (arsiPhases k) := by phases_ordered arsiPhases

theorem arsi_stream_run (o : Nat → R) (m : Nat) (h0 : ¬ o 0 ≤ c! 0) (hm : toInt (o 0 * c! 50 + c! 1) = .ok (m : Int)) (h4 : 4 ≤ m)
    (hi : ∀ (x : Nat → R) t, toInt (o 0 * hdVal x t) = .ok (CMath.trunc (o 0 * hdVal x t)))
    (hl : ∀ (x : Nat → R) t, CMath.trunc (o 0 * hdVal x t) < (m : Int)) :
    (arsi (R := R)).StreamComputes o 5 (arsiVal (o 0)) := by
  refine streamComputes_traj (I := arsi) (k := (o 0 : R)) (s0 := hdTraj m (fun _ => c! 0) 0) ?_ (arsiPhases_ordered _)
    (hdTraj m) (fun x => hdTraj_zero m (by omega) (fun _ => c! 0) x) (fun x n => ?_)
  · simp only [arsi, arsiNew, arsiStart]
    rw [if_neg h0, hm, bind_ok, HdS.make_after (hdSig twoPi (hdSmooth 5 fun _ => (c! 0 : R))), bind_ok,
      Ring.make_after (fun _ => (c! 0 : R)) m (by omega), bind_ok]
    rfl
  · simp only [barStep, arsi, arsiPhases, List.find?]
    by_cases hn : n < 5
    · rw [decide_eq_true (by omega), if_pos hn]
      simp only [hdTraj, Ring.after_set x m (by omega) n (x n) rfl, bind_ok, pure_eq, Ring.now_step, show n - 5 = 0 by omega,
        show n + 1 - 5 = 0 by omega]
    · obtain ⟨t, rfl⟩ : ∃ t, n = 5 + t := ⟨n - 5, by omega⟩
      rw [decide_eq_false (by omega), if_neg hn]
      simp only [hdTraj, Ring.after_set x m (by omega) (5 + t) (x (5 + t)) rfl, bind_ok, pure_eq,
        Ring.now_cur x m (by omega) (5 + t), Ring.now_get x m (5 + t) 1 1 rfl (by omega) (by omega),
        Ring.now_get x m (5 + t) 2 2 rfl (by omega) (by omega), Ring.now_get x m (5 + t) 3 3 rfl (by omega) (by omega),
        show 5 + t - 5 = t by omega, show 5 + t + 1 - 5 = t + 1 by omega]
      have h := hdCore_after twoPi (hdSmooth 5 x) 0 t
      rw [show smooth4 (x (5 + t)) (x (5 + t - 1)) (x (5 + t - 2)) (x (5 + t - 3)) = hdSmooth 5 x t from rfl, h, bind_ok,
        show (HdS.now 0 (hdSig twoPi (hdSmooth 5 x)) t).sp.cur = hdVal x t from rfl, hi, bind_ok]
      have hs := arsi_sums x (5 + t) (CMath.trunc (o 0 * hdVal x t)) (fun c => (Ring.now x m (5 + t)).get c)
        (fun k hk hk' => Ring.now_get x m (5 + t) k k rfl (by have := hl x t; omega) hk')
      rw [show -((5 : Nat) : Int) + ((5 + t : Nat) : Int) + 5 = ((5 + t : Nat) : Int) by omega]
      simp only [pure_eq] at hs
      rw [hs, bind_ok, HdS.now_step]
      rfl

/-! ### mama -/

/-- The discriminator of mama: angles are counted as if `atan` were in degrees. -/
def mamaG (x : Nat → R) : Nat → HdV R := hdSig (c! 360) (hdSmooth 6 x)
def mamaPhase (x : Nat → R) (t : Nat) : R :=
  if !((mamaG x t).i1 == c! 0) then CMath.atan ((mamaG x t).q1 / (mamaG x t).i1) else c! 0
def mamaAlpha (fast slow : R) (x : Nat → R) (t : Nat) : R :=
  stdMax slow (fast / stdMax (c! 1) (back (mamaPhase x) t 1 - mamaPhase x t))
def mamaM (fast slow : R) (x : Nat → R) : Nat → R
  | 0 => mamaAlpha fast slow x 0 * x 6 + (c! 1 - mamaAlpha fast slow x 0) * c! 0
  | t + 1 => mamaAlpha fast slow x (t + 1) * x (6 + (t + 1)) + (c! 1 - mamaAlpha fast slow x (t + 1)) * mamaM fast slow x t
def mamaF (fast slow : R) (x : Nat → R) : Nat → R
  | 0 => c! 5 / c! 10 * mamaAlpha fast slow x 0 * mamaM fast slow x 0 + (c! 1 - c! 5 / c! 10 * mamaAlpha fast slow x 0) * c! 0
  | t + 1 => c! 5 / c! 10 * mamaAlpha fast slow x (t + 1) * mamaM fast slow x (t + 1) +
      (c! 1 - c! 5 / c! 10 * mamaAlpha fast slow x (t + 1)) * mamaF fast slow x t

theorem mamaM_eq (fast slow : R) (x : Nat → R) (t : Nat) : mamaM fast slow x t =
    mamaAlpha fast slow x t * x (6 + t) + (c! 1 - mamaAlpha fast slow x t) * back (mamaM fast slow x) t 1 := by
  cases t <;> rfl
theorem mamaF_eq (fast slow : R) (x : Nat → R) (t : Nat) : mamaF fast slow x t =
    c! 5 / c! 10 * mamaAlpha fast slow x t * mamaM fast slow x t +
      (c! 1 - c! 5 / c! 10 * mamaAlpha fast slow x t) * back (mamaF fast slow x) t 1 := by
  cases t <;> rfl

def mamaVal (fast slow : R) (x : Nat → R) (t : Nat) : MamaOut R := ⟨mamaM fast slow x t, mamaF fast slow x t⟩

def MamaS.after (d : Nat) (fast slow : R) (x : Nat → R) (t : Nat) : MamaS R :=
  ⟨HdS.after d (mamaG x) t, Ring2.after (mamaPhase x) t, Ring2.after (mamaM fast slow x) t, Ring2.after (mamaF fast slow x) t⟩
def MamaS.now (d : Nat) (fast slow : R) (x : Nat → R) (t : Nat) : MamaS R :=
  ⟨HdS.now d (mamaG x) t, Ring2.now (mamaPhase x) t, Ring2.now (mamaM fast slow x) t, Ring2.now (mamaF fast slow x) t⟩

theorem MamaS.now_step (d : Nat) (fast slow : R) (x : Nat → R) (t : Nat) :
    (MamaS.now d fast slow x t).step = MamaS.after d fast slow x (t + 1) := by
  simp only [MamaS.now, MamaS.step, MamaS.after, Ring2.now_step, HdS.now_step]

theorem MamaS.make_after (fast slow : R) (x : Nat → R) : MamaS.make = .ok (MamaS.after 0 fast slow x 0) := by
  unfold MamaS.make
  rw [HdS.make_after (mamaG x), bind_ok]
  rfl

theorem mamaBody_after (fast slow : R) (x : Nat → R) (d t : Nat) :
    mamaBody fast slow (x (6 + t)) (x (6 + t - 1)) (x (6 + t - 2)) (x (6 + t - 3)) (MamaS.after d fast slow x t) =
      .ok (MamaS.now d fast slow x t) := by
  unfold mamaBody
  simp only [MamaS.after]
  have h := hdCore_after (c! 360) (hdSmooth 6 x) d t
  rw [show smooth4 (x (6 + t)) (x (6 + t - 1)) (x (6 + t - 2)) (x (6 + t - 3)) = hdSmooth 6 x t from rfl,
    show mamaG x = hdSig (c! 360) (hdSmooth 6 x) from rfl, h, bind_ok]
  simp only [HdS.now]
  rw [Ring.now_cur _ 7 (by omega), delay_at, bind_ok, Ring.now_cur _ 7 (by omega), delay_at, bind_ok]
  simp only [Ring2.get_one, bind_ok, Ring2.set, Ring2.cur, Ring2.after, pure_eq]
  unfold MamaS.now Ring2.now
  rw [mamaM_eq fast slow x t, mamaF_eq fast slow x t, mamaM_eq fast slow x t]
  rfl

theorem mama_run (o : Nat → R) (h0 : mamaBad o = false) : Computes mamaBatch o 6 (mamaVal (o 0) (o 1)) := by
  intro x N
  unfold mamaBatch mamaStart
  rw [h0, if_neg (by simp), bind_ok, MamaS.make_after (o 0) (o 1) x, bind_ok, length_pre]
  by_cases hN : N ≤ 6
  · rw [forUp_empty (by omega), bind_ok, show N - 6 = 0 by omega]; rfl
  refine forUp_bind 6 N (fun n => (MamaS.after 0 (o 0) (o 1) x (n - 6), pre (mamaVal (o 0) (o 1) x) (n - 6))) rfl rfl rfl
    (by omega) ?_ rfl
  intro n h1 h2
  obtain ⟨t, rfl⟩ : ∃ t, n = 6 + t := ⟨n - 6, by omega⟩
  rw [rd_pre_nat _ _ _ h2, bind_ok, rd_at (6 + t - 1) (by omega) (by omega), bind_ok,
    rd_at (6 + t - 2) (by omega) (by omega), bind_ok, rd_at (6 + t - 3) (by omega) (by omega), bind_ok]
  simp only [show 6 + t - 6 = t by omega, show 6 + t + 1 - 6 = t + 1 by omega]
  rw [mamaBody_after, bind_ok]
  refine (bind_ok' (wr_pre _ (mamaVal (o 0) (o 1) x) t _ (by omega) rfl)).trans ?_
  rw [MamaS.now_step]
  rfl

theorem mamaPhases_ordered (k : R × R) : Phases.Ordered (mamaPhases k) := by phases_ordered mamaPhases

/-- The buffers while the first six bars pass. -/
def mamaWait (g : Nat → HdV R) (n : Nat) : HdS R :=
  ⟨Ring.after (delay 6 fun k => (g k).sm) 7 n, Ring.after (delay 6 fun k => (g k).det) 7 n,
   Ring.after (delay 6 fun k => (g k).i1) 7 n, Ring.after (delay 6 fun k => (g k).q1) 7 n,
   Ring2.make, Ring2.make, Ring2.make, Ring2.make, Ring2.make, Ring2.make⟩

theorem mamaWait_step (g : Nat → HdV R) (n : Nat) (hn : n < 6) : (mamaWait g n).step = mamaWait g (n + 1) := by
  have h := fun f : HdV R → R => Ring.after_skip (delay 6 fun k => f (g k)) 7 n (fun k hk => if_pos (by omega))
  simp only [mamaWait, HdS.step, h (·.sm), h (·.det), h (·.i1), h (·.q1)]
  rfl

def mamaTraj (fast slow : R) (x : Nat → R) (n : Nat) : MamaS R × Ring R :=
  (if n < 6 then ⟨mamaWait (mamaG x) n, Ring2.make, Ring2.make, Ring2.make⟩ else MamaS.after 6 fast slow x (n - 6), Ring.after x 4 n)

theorem mamaTraj_lt (fast slow : R) (x : Nat → R) (n : Nat) (h : n ≤ 6) : mamaTraj fast slow x n =
    (⟨mamaWait (mamaG x) n, Ring2.make, Ring2.make, Ring2.make⟩, Ring.after x 4 n) := by
  unfold mamaTraj
  by_cases h' : n < 6
  · rw [if_pos h']
  · obtain rfl : n = 6 := by omega
    rfl

theorem mamaTraj_ge (fast slow : R) (x : Nat → R) (t : Nat) : mamaTraj fast slow x (6 + t) =
    (MamaS.after 6 fast slow x t, Ring.after x 4 (6 + t)) := by
  unfold mamaTraj
  rw [if_neg (by omega), show 6 + t - 6 = t by omega]

theorem mamaTraj_zero (fast slow : R) (x y : Nat → R) : mamaTraj fast slow x 0 = mamaTraj fast slow y 0 := rfl

theorem mama_stream_run (o : Nat → R) (h0 : mamaBad o = false) :
    (mama (R := R)).StreamComputes o 6 (mamaVal (o 0) (o 1)) := by
  refine streamComputes_traj (I := mama) (k := ((o 0, o 1) : R × R)) (s0 := mamaTraj (o 0) (o 1) (fun _ => c! 0) 0) ?_ (mamaPhases_ordered _)
    (mamaTraj (o 0) (o 1)) (fun x => mamaTraj_zero _ _ (fun _ => c! 0) x) (fun x n => ?_)
  · simp only [mama, mamaNew, mamaStart]
    rw [h0, if_neg (by simp), MamaS.make_after (o 0) (o 1) (fun _ => (c! 0 : R)), bind_ok, bind_ok,
      show (4 : Int) = ((4 : Nat) : Int) from rfl, Ring.make_after (fun _ => (c! 0 : R)) 4 (by omega), bind_ok]
    rfl
  · simp only [barStep, mama, mamaPhases, List.find?]
    by_cases hn : n < 6
    · rw [decide_eq_true (by omega), if_pos hn]
      simp only [mamaTraj_lt _ _ x n (by omega), mamaTraj_lt _ _ x (n + 1) (by omega), Ring.after_set x 4 (by omega) n (x n) rfl, bind_ok,
        pure_eq, Ring.now_step, MamaS.step, mamaWait_step _ n hn]
      rfl
    · obtain ⟨t, rfl⟩ : ∃ t, n = 6 + t := ⟨n - 6, by omega⟩
      rw [decide_eq_false (by omega), if_neg hn]
      rw [mamaTraj_ge, show 6 + t + 1 = 6 + (t + 1) from rfl, mamaTraj_ge]
      simp only [Ring.after_set x 4 (by omega) (6 + t) (x (6 + t)) rfl, bind_ok, pure_eq,
        Ring.now_cur x 4 (by omega) (6 + t), Ring.now_get x 4 (6 + t) 1 1 rfl (by omega) (by omega),
        Ring.now_get x 4 (6 + t) 2 2 rfl (by omega) (by omega), Ring.now_get x 4 (6 + t) 3 3 rfl (by omega) (by omega),
        show 6 + t - 6 = t by omega]
      rw [mamaBody_after, bind_ok, MamaS.now_step]
      rfl

/-- The row of the arrays of the reference at index `k`: six zero rows, then the signals. -/
def mamaRowAt (x : Nat → R) (k : Nat) : MamaRow R :=
  if k < 6 then ⟨c! 0, c! 0, c! 0, c! 0, c! 0, c! 0, c! 0, c! 0, c! 0, c! 0⟩
  else ⟨(mamaG x (k - 6)).sm, (mamaG x (k - 6)).det, (mamaG x (k - 6)).i1, (mamaG x (k - 6)).q1, (mamaG x (k - 6)).i2,
    (mamaG x (k - 6)).q2, (mamaG x (k - 6)).re, (mamaG x (k - 6)).im, (mamaG x (k - 6)).per, mamaPhase x (k - 6)⟩

theorem mamaRowAt_back (x : Nat → R) (f : MamaRow R → R) (h : Nat → R) (hz : f (mamaRowAt x 0) = c! 0)
    (hf : ∀ t, f (mamaRowAt x (6 + t)) = h t) (t k : Nat) (hk : k ≤ 6) : f (mamaRowAt x (6 + t - k)) = back h t k := by
  unfold back
  by_cases h1 : k ≤ t
  · rw [if_pos h1, ← hf, show 6 + (t - k) = 6 + t - k by omega]
  · rw [if_neg h1, ← hz]
    unfold mamaRowAt
    rw [if_pos (by omega), if_pos (by omega)]

theorem mamaRowAt_ge (x : Nat → R) (t : Nat) : mamaRowAt x (6 + t) =
    ⟨(mamaG x t).sm, (mamaG x t).det, (mamaG x t).i1, (mamaG x t).q1, (mamaG x t).i2,
    (mamaG x t).q2, (mamaG x t).re, (mamaG x t).im, (mamaG x t).per, mamaPhase x t⟩ := by
  unfold mamaRowAt
  rw [if_neg (by omega), show 6 + t - 6 = t by omega]

theorem hilbertAt_rows (x : Nat → R) (f : MamaRow R → R) (h : Nat → R) (hz : f (mamaRowAt x 0) = c! 0)
    (hf : ∀ t, f (mamaRowAt x (6 + t)) = h t) (t : Nat) (v : R) :
    hilbertAt (pre (mamaRowAt x) (6 + t)) ((6 + t : Nat) : Int) f v =
      .ok (c! 962 / c! 10000 * v + c! 5769 / c! 10000 * back h t 2 - c! 5769 / c! 10000 * back h t 4 -
        c! 962 / c! 10000 * back h t 6) := by
  unfold hilbertAt
  rw [rd_at (i := ((6 + t : Nat) : Int) - 2) (6 + t - 2) (by omega) (by omega), bind_ok,
    rd_at (i := ((6 + t : Nat) : Int) - 4) (6 + t - 4) (by omega) (by omega), bind_ok,
    rd_at (i := ((6 + t : Nat) : Int) - 6) (6 + t - 6) (by omega) (by omega), bind_ok,
    mamaRowAt_back x f h hz hf t 2 (by omega), mamaRowAt_back x f h hz hf t 4 (by omega), mamaRowAt_back x f h hz hf t 6 (by omega)]
  rfl

/-- The reference on a series whose in-phase and quadrature products never vanish (after the first two bars, where both
versions fall back to zero). -/
theorem mamaRef_run (hmax : ∀ a b : R, stdMax a b = if b < a then a else b) (o : Nat → R) (h0 : ¬ (o 0 < c! 0 ∨ c! 1 < o 0)) (h1 : ¬ (o 1 < c! 0 ∨ c! 1 < o 1)) (x : Nat → R) (N : Nat)
    (hg : ∀ t, 2 ≤ t → 6 + t < N → ((mamaG x t).im == c! 0) = false ∧ ((mamaG x t).re == c! 0) = false) :
    mamaRef o (pre x N) = .ok (.okay, pre (mamaVal (o 0) (o 1) x) (N - 6)) := by
  unfold mamaRef mamaStart
  rw [if_neg h0, if_neg h1, bind_ok, length_pre]
  simp only []
  by_cases hN : N ≤ 6
  · rw [forUp_empty (by omega), bind_ok, show N - 6 = 0 by omega]; rfl
  refine forUp_bind 6 N (fun n => (pre (mamaRowAt x) n, pre (mamaVal (o 0) (o 1) x) (n - 6))) rfl rfl rfl
    (by omega) ?_ rfl
  intro n h1 h2
  obtain ⟨t, rfl⟩ : ∃ t, n = 6 + t := ⟨n - 6, by omega⟩
  simp only [show 6 + t - 6 = t by omega, show 6 + t + 1 - 6 = t + 1 by omega]
  have e := hdSig_eqs (c! 360) (hdSmooth 6 x) t
  rw [show hdSig (c! 360) (hdSmooth 6 x) = mamaG x from rfl] at e
  have hb := fun (f : MamaRow R → R) (h : Nat → R) hz hf k hk => mamaRowAt_back x f h hz hf t k hk
  rw [rd_at (x := mamaRowAt x) (6 + t - 1) (by omega) (by omega), bind_ok]
  rw [rd_at (x := x) (i := ((6 + t : Nat) : Int)) (6 + t) (by omega) (by omega), bind_ok,
    rd_at (x := x) (i := ((6 + t : Nat) : Int) - 1) (6 + t - 1) (by omega) (by omega), bind_ok,
    rd_at (x := x) (i := ((6 + t : Nat) : Int) - 2) (6 + t - 2) (by omega) (by omega), bind_ok,
    rd_at (x := x) (i := ((6 + t : Nat) : Int) - 3) (6 + t - 3) (by omega) (by omega), bind_ok]
  rw [show smooth4 (x (6 + t)) (x (6 + t - 1)) (x (6 + t - 2)) (x (6 + t - 3)) = (mamaG x t).sm from e.sm.symm]
  rw [hb (·.per) (fun k => (mamaG x k).per) rfl (fun t => by rw [mamaRowAt_ge]) 1 (by omega),
    hb (·.i2) (fun k => (mamaG x k).i2) rfl (fun t => by rw [mamaRowAt_ge]) 1 (by omega),
    hb (·.q2) (fun k => (mamaG x k).q2) rfl (fun t => by rw [mamaRowAt_ge]) 1 (by omega),
    hb (·.re) (fun k => (mamaG x k).re) rfl (fun t => by rw [mamaRowAt_ge]) 1 (by omega),
    hb (·.im) (fun k => (mamaG x k).im) rfl (fun t => by rw [mamaRowAt_ge]) 1 (by omega),
    hb (·.phase) (mamaPhase x) rfl (fun t => by rw [mamaRowAt_ge]) 1 (by omega)]
  rw [hilbertAt_rows x (·.sm) (fun k => (mamaG x k).sm) rfl (fun t => by rw [mamaRowAt_ge]), bind_ok, ← e.det,
    hilbertAt_rows x (·.det) (fun k => (mamaG x k).det) rfl (fun t => by rw [mamaRowAt_ge]), bind_ok, ← e.q1,
    rd_at (x := mamaRowAt x) (6 + t - 3) (by omega) (by omega), bind_ok,
    hb (·.det) (fun k => (mamaG x k).det) rfl (fun t => by rw [mamaRowAt_ge]) 3 (by omega), ← e.i1,
    hilbertAt_rows x (·.i1) (fun k => (mamaG x k).i1) rfl (fun t => by rw [mamaRowAt_ge]), bind_ok,
    hilbertAt_rows x (·.q1) (fun k => (mamaG x k).q1) rfl (fun t => by rw [mamaRowAt_ge]), bind_ok, ← e.i2, ← e.q2, ← e.re, ← e.im]
  have ep : (if (!((mamaG x t).im == c! 0) && !((mamaG x t).re == c! 0)) = true then c! 360 / CMath.atan ((mamaG x t).im / (mamaG x t).re)
      else c! 0) = hdCand (c! 360) (mamaG x t).im (mamaG x t).re (back (fun k => (mamaG x k).per) t 2) := by
    unfold hdCand
    by_cases ht : 2 ≤ t
    · obtain ⟨ha, hb⟩ := hg t ht h2
      rw [ha, hb]; rfl
    · rw [show back (fun k => (mamaG x k).per) t 2 = c! 0 from if_neg ht]
  rw [ep]
  have eq := e.per
  unfold hdClamp stdMin stdMax at eq
  rw [← eq]
  rw [show (if !((mamaG x t).i1 == c! 0) then CMath.atan ((mamaG x t).q1 / (mamaG x t).i1) else c! 0) = mamaPhase x t from rfl]
  rw [show (if o 0 / (if back (mamaPhase x) t 1 - mamaPhase x t < c! 1 then c! 1 else back (mamaPhase x) t 1 - mamaPhase x t) < o 1
    then o 1 else o 0 / (if back (mamaPhase x) t 1 - mamaPhase x t < c! 1 then c! 1 else back (mamaPhase x) t 1 - mamaPhase x t)) = mamaAlpha (o 0) (o 1) x t from ?_]
  · cases t with
    | zero =>
      rw [if_neg (by omega)]
      simp only [pure_eq, bind_ok]
      refine (bind_ok' (wr_pre _ (mamaVal (o 0) (o 1) x) 0 _ (by omega) rfl)).trans ?_
      rw [pre_succ (mamaRowAt x) (6 + 0), mamaRowAt_ge]
    | succ t =>
      rw [if_pos (by omega), rd_at t (by omega) (by omega), bind_ok, bind_ok]
      refine (bind_ok' (wr_pre _ (mamaVal (o 0) (o 1) x) (t + 1) _ (by omega) rfl)).trans ?_
      rw [pre_succ (mamaRowAt x), mamaRowAt_ge]
      rfl
  · unfold mamaAlpha
    rw [hmax, hmax]

end Verif
