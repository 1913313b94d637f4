/- C68, C69: what the generated C# classes report. -/
import Verif.Model.CSharp
import Verif.Proof.Contract
import Verif.Props.Sum
import Verif.Props.Ema
import Verif.Props.Bars

set_option linter.unusedSectionVars false

namespace Verif
variable {R ρ ω : Type}

/-! ### Streaming classes -/

theorem runs_snoc (I : Indicator R ρ ω) (k : I.κ) (c : List ρ) : ∀ (cs : List (List ρ)) (p : Int) (s : I.σ) (p' : Int) (s' : I.σ)
    (out : List ω), I.runs k cs p s = .ok (p', s', out) →
    I.runs k (cs ++ [c]) p s = match runPhases (I.phases k) c p' s' with
      | .error e => .error e
      | .ok (p2, s2, o2) => .ok (p2, s2, out ++ o2)
  | [], p, s, p', s', out, h => by
    simp only [Indicator.runs] at h
    cases h
    simp only [List.nil_append, Indicator.runs]
    cases runPhases (I.phases k) c p s with
    | error e => rfl
    | ok v => simp
  | a :: cs, p, s, p', s', out, h => by
    simp only [Indicator.runs] at h
    simp only [List.cons_append, Indicator.runs]
    cases h1 : runPhases (I.phases k) a p s with
    | error e => rw [h1] at h; cases h
    | ok v =>
      obtain ⟨p1, s1, o1⟩ := v
      rw [h1] at h
      simp only at h ⊢
      cases h2 : I.runs k cs p1 s1 with
      | error e => rw [h2] at h; cases h
      | ok w =>
        obtain ⟨p2, s2, o2⟩ := w
        rw [h2] at h
        simp only [Except.ok.injEq, Prod.mk.injEq] at h
        obtain ⟨rfl, rfl, rfl⟩ := h
        rw [runs_snoc I k c cs p1 s1 _ _ _ h2]
        cases runPhases (I.phases k) c p2 s2 with
        | error e => rfl
        | ok v => simp [List.append_assoc]

theorem csSteps_snoc (I : Indicator R ρ ω) (k : I.κ) (b : ρ) : ∀ (bs : List ρ) (p : Int) (s : I.σ) (p' : Int) (s' : I.σ)
    (out : List (CsOut ω)), csSteps I k bs p s = .ok (p', s', out) →
    csSteps I k (bs ++ [b]) p s = match csStep I k p' s' b with
      | .error e => .error e
      | .ok (p2, s2, o2) => .ok (p2, s2, out ++ [o2])
  | [], p, s, p', s', out, h => by
    simp only [csSteps] at h
    cases h
    simp only [List.nil_append, csSteps]
    cases csStep I k p s b with
    | error e => rfl
    | ok v => rfl
  | a :: bs, p, s, p', s', out, h => by
    simp only [csSteps] at h
    simp only [List.cons_append, csSteps]
    cases h1 : csStep I k p s a with
    | error e => rw [h1] at h; cases h
    | ok v =>
      obtain ⟨p1, s1, o1⟩ := v
      rw [h1] at h
      simp only at h ⊢
      cases h2 : csSteps I k bs p1 s1 with
      | error e => rw [h2] at h; cases h
      | ok w =>
        obtain ⟨p2, s2, o2⟩ := w
        rw [h2] at h
        simp only [Except.ok.injEq, Prod.mk.injEq] at h
        obtain ⟨rfl, rfl, rfl⟩ := h
        rw [csSteps_snoc I k b bs p1 s1 _ _ _ h2]
        cases csStep I k p2 s2 b with
        | error e => rfl
        | ok v => rfl

theorem flatten_singles (l : List ρ) : (l.map fun b => [b]).flatten = l := by
  induction l with
  | nil => rfl
  | cons a l ih => simpa using ih

theorem new_made {I : Indicator R ρ ω} {o : Nat → R} {s : Nat} (hs : I.StreamEqBatch o s) (b : ρ) :
    ∃ k p s0, I.new o = .ok (.made k p s0) := by
  obtain ⟨out, _, h⟩ := hs []
  obtain ⟨out1, _, h1⟩ := hs [[b]]
  unfold Indicator.session at h h1
  cases hn : I.new o with
  | error e => rw [hn] at h; cases h
  | ok v =>
    cases v with
    | fail r =>
      rw [hn] at h h1
      simp only [Except.ok.injEq, Prod.mk.injEq] at h h1
      have e0 := h.2.1
      have e1 := h1.2.1
      simp at e0 e1
      omega
    | made k p s0 => exact ⟨k, p, s0, rfl⟩

/-- A streaming class whose stream agrees with the batch call: for the first `start` bars it is not ready and shows cells nobody
has written; from then on it is ready and shows, bar by bar, the values one batch call on all bars writes. -/
theorem csharp_stream {I : Indicator R ρ ω} {o : Nat → R} {s : Nat} (hc : Contract I.start I.batch o s) (hs : I.StreamEqBatch o s)
    (bars : List ρ) (hb : bars ≠ []) : ∃ out, I.batch o bars = .ok (.okay, out) ∧ out.length = bars.length - s ∧
      csStream I o bars = .ok (.ret (List.replicate (min s bars.length) ⟨none, false⟩ ++ out.map fun v => ⟨some v, true⟩)) := by
  obtain ⟨b0, hb0⟩ := List.exists_mem_of_ne_nil bars hb
  obtain ⟨k, p0, s0, hnew⟩ := new_made hs b0
  have key : ∀ bars : List ρ, ∃ out p' s', I.batch o bars = .ok (.okay, out) ∧ out.length = bars.length - s ∧
      I.runs k (bars.map fun b => [b]) p0 s0 = .ok (p', s', out) ∧ p' = (bars.length : Int) - s ∧
      csSteps I k bars p0 s0 = .ok (p', s', List.replicate (min s bars.length) ⟨none, false⟩ ++ out.map fun v => ⟨some v, true⟩) := by
    intro bars
    have sess : ∀ bars : List ρ, ∃ out p' s', I.batch o bars = .ok (.okay, out) ∧ out.length = bars.length - s ∧
        I.runs k (bars.map fun b => [b]) p0 s0 = .ok (p', s', out) ∧ p' = (bars.length : Int) - s := by
      intro bars
      obtain ⟨out, h1, h2⟩ := hs (bars.map fun b => [b])
      rw [flatten_singles bars] at h1 h2
      obtain ⟨out', h3, h4⟩ := hc.safe bars
      rw [h1] at h3
      obtain rfl : out = out' := by simpa using h3
      unfold Indicator.session at h2
      rw [hnew] at h2
      simp only at h2
      cases hr : I.runs k (bars.map fun b => [b]) p0 s0 with
      | error e => rw [hr] at h2; cases h2
      | ok v =>
        obtain ⟨p', s', o'⟩ := v
        rw [hr] at h2
        simp only [Except.ok.injEq, Prod.mk.injEq, true_and] at h2
        obtain ⟨h5, rfl⟩ := h2
        exact ⟨o', p', s', h1, h4, rfl, h5⟩
    induction bars using List.reverseRecOn with
    | nil =>
      obtain ⟨out, p', s', h1, h2, h3, h4⟩ := sess []
      refine ⟨out, p', s', h1, h2, h3, h4, ?_⟩
      simp only [List.map_nil, Indicator.runs] at h3
      cases h3
      simp [csSteps]
    | append_singleton bars b ih =>
      obtain ⟨out, p', s', h1, h2, h3, h4, h5⟩ := ih
      obtain ⟨out2, p2, s2, g1, g2, g3, g4⟩ := sess (bars ++ [b])
      refine ⟨out2, p2, s2, g1, g2, g3, g4, ?_⟩
      rw [List.map_append, List.map_singleton, runs_snoc I k [b] _ _ _ _ _ _ h3] at g3
      rw [csSteps_snoc I k b _ _ _ _ _ _ h5]
      unfold csStep
      cases hr : runPhases (I.phases k) [b] p' s' with
      | error e => rw [hr] at g3; cases g3
      | ok v =>
        obtain ⟨pv, sv, ov⟩ := v
        rw [hr] at g3
        simp only [Except.ok.injEq, Prod.mk.injEq] at g3
        obtain ⟨rfl, rfl, rfl⟩ := g3
        simp only [List.length_append, List.length_singleton] at g2 g4 ⊢
        by_cases hlt : bars.length < s
        · have ov0 : ov = [] := List.length_eq_zero_iff.1 (by omega)
          have out0 : out = [] := List.length_eq_zero_iff.1 (by omega)
          subst ov0 out0
          simp only [csCell, List.map_nil, List.append_nil, decide_eq_false (show ¬ 0 < pv by omega),
            Nat.min_eq_right (show bars.length ≤ s by omega), Nat.min_eq_right (show bars.length + 1 ≤ s by omega)]
          rw [List.replicate_succ']
        · obtain ⟨w, rfl⟩ := List.length_eq_one_iff.1 (show ov.length = 1 by omega)
          simp only [csCell, List.map_append, List.map_cons, List.map_nil, decide_eq_true (show 0 < pv by omega),
            Nat.min_eq_left (show s ≤ bars.length by omega), Nat.min_eq_left (show s ≤ bars.length + 1 by omega), List.append_assoc]
  obtain ⟨out, p', s', h1, h2, -, -, h5⟩ := key bars
  refine ⟨out, h1, h2, ?_⟩
  unfold csStream
  rw [hnew]
  simp only
  rw [h5]

/-- Options `stream_new` refuses make the constructor throw. -/
theorem csharp_stream_refuses {I : Indicator R ρ ω} {o : Nat → R} (h : I.NewRefuses o) (bars : List ρ) :
    csStream I o bars = .ok (.thrown .invalidOption) := by
  unfold csStream
  rw [h]

/-! ### Windowed classes -/

section
variable {start : (Nat → R) → M Int} {batch : (Nat → R) → List ρ → M (Ret × List ω)} {o : Nat → R} {s : Nat}

theorem csTmp_succ (n : Nat) (window : List (Nat → R)) : csTmp (n + 1) window = window.map fun bar => bar n := by
  simp [csTmp, List.range_succ]

/-- What a windowed class computes, for any number of inputs: the library is called on the newest `max(windowsize, start + 1)` bars,
with the last input in the place of every input. -/
theorem csharp_default (hc : Contract start batch o s) (n : Nat) (mk : (Nat → R) → ρ) (ws : Int) (bars : List (Nat → R)) :
    ∃ out, batch o ((bars.drop (bars.length - (max ws (s + 1)).toNat)).map fun bar => mk fun _ => bar n) = .ok (.okay, out) ∧
      csDefault start batch (n + 1) mk o ws bars = .ok (.ret ⟨out.getLast?, decide (s < bars.length)⟩) := by
  have hW : s + 1 ≤ (max ws (s + 1)).toNat := by omega
  unfold csDefault
  rw [hc.start_eq]
  simp only [bind_ok]
  generalize (max ws (s + 1)).toNat = W at *
  generalize hw : bars.drop (bars.length - W) = w
  have hl : w.length = min W bars.length := by rw [← hw, List.length_drop]; omega
  obtain ⟨out, h1, h2⟩ := hc.safe (w.map fun bar => mk fun _ => bar n)
  rw [List.length_map] at h2
  refine ⟨out, h1, ?_⟩
  rw [csTmp_succ, List.map_map]
  by_cases hr : s < bars.length
  · rw [if_neg (by omega)]
    have e : (fun v => mk fun _ => v) ∘ (fun bar : Nat → R => bar n) = fun bar => mk fun _ => bar n := rfl
    rw [e, h1, bind_ok]
    simp only [ne_eq, not_true_eq_false, if_false, pure_eq, decide_eq_true hr]
    rw [List.getLast?_eq_getElem?, show ((w.length : Int) - s - 1).toNat = out.length - 1 by omega]
  · rw [if_pos (by omega)]
    have : out = [] := List.length_eq_zero_iff.1 (by omega)
    subst this
    simp only [pure_eq, decide_eq_false hr]
    rfl

/-- A class with one input shows the newest value of a batch call on its window. -/
theorem csharp_default_partial (hc : Contract start batch o s) (mk : (Nat → R) → ρ) (ws : Int) (x : List R) :
    ∃ out, batch o ((x.drop (x.length - (max ws (s + 1)).toNat)).map fun v => mk fun _ => v) = .ok (.okay, out) ∧
      csDefault start batch 1 mk o ws (x.map fun v _ => v) = .ok (.ret ⟨out.getLast?, decide (s < x.length)⟩) := by
  have h := csharp_default hc 0 mk ws (x.map fun v _ => v)
  rw [List.length_map, ← List.map_drop, List.map_map] at h
  exact h

/-- `val` looks back at most `s` bars. -/
def LooksBack (s : Nat) (val : (Nat → ρ) → Nat → ω) : Prop :=
  ∀ (x y : Nat → ρ) (i j : Nat), (∀ d, d ≤ s → x (i + d) = y (j + d)) → val x i = val y j

/-- If the value looks back at most `start` bars, the window makes no difference: the class shows the newest value of a batch call on
the whole series. -/
theorem csharp_default_whole {R ω : Type} {start : (Nat → R) → M Int} {batch : (Nat → R) → List R → M (Ret × List ω)}
    {o : Nat → R} {s : Nat} {val : (Nat → R) → Nat → ω} (hc : Contract start batch o s) (hv : Computes batch o s val)
    (hl : LooksBack s val) (ws : Int) (x : Nat → R) (N : Nat) (hN : s < N) :
    csDefault start batch 1 (fun c => c 0) o ws ((pre x N).map fun v _ => v) = .ok (.ret ⟨some (val x (N - 1 - s)), true⟩) := by
  obtain ⟨out, h1, h2⟩ := csharp_default_partial hc (fun c => c 0) ws (pre x N)
  rw [h2, length_pre, decide_eq_true hN]
  have hW : s + 1 ≤ (max ws (s + 1)).toNat := by omega
  generalize (max ws (s + 1)).toNat = W at *
  have e : ((pre x N).drop (N - W)).map (fun v => (fun c : Nat → R => c 0) fun _ => v) = pre (fun i => x (N - W + i)) (min W N) := by
    apply List.ext_getElem
    · simp only [List.length_map, List.length_drop, length_pre]; omega
    · intro i h1 h2
      simp [pre]
  rw [length_pre, e, hv] at h1
  simp only [Except.ok.injEq, Prod.mk.injEq, true_and] at h1
  subst h1
  congr 3
  rw [List.getLast?_eq_getElem?, length_pre]
  rw [show (pre (val fun i => x (N - W + i)) (min W N - s))[min W N - s - 1]? = some (val (fun i => x (N - W + i)) (min W N - s - 1)) by
    rw [List.getElem?_eq_getElem (by rw [length_pre]; omega)]; simp [pre]]
  congr 1
  exact hl _ _ _ _ fun d hd => by congr 1; omega

/-- A class with several inputs ignores all of them but the last: whatever the other inputs are, it shows the same. -/
theorem csharp_default_violates (n : Nat) (mk : (Nat → R) → ρ) (ws : Int) (bars bars' : List (Nat → R)) (hl : bars.length = bars'.length)
    (h : ∀ i (h1 : i < bars.length) (h2 : i < bars'.length), bars[i] n = bars'[i] n) :
    csDefault start batch (n + 1) mk o ws bars = csDefault start batch (n + 1) mk o ws bars' := by
  have e : ∀ d, (bars.drop d).map (fun bar => bar n) = (bars'.drop d).map fun bar => bar n := by
    intro d
    apply List.ext_getElem
    · simp [hl]
    · intro i h1 h2
      simp only [List.getElem_map, List.getElem_drop]
      exact h _ _ _
  unfold csDefault
  simp only [csTmp_succ, e, hl, List.length_drop]

end

/-- The windowed class of ema shows the newest price, not an average, unless its window is made larger: the start index of ema is 0, so
its window holds one bar. -/
theorem csharp_ema_violates [Num R] (o : Nat → R) (p : Nat) (hc : toInt (o 0) = .ok (p : Int)) (hp : 1 ≤ p) (xs : List R) (v : R) :
    csDefault emaStart emaBatch 1 (fun c => c 0) o 0 ((xs ++ [v]).map fun v _ => v) = .ok (.ret ⟨some v, true⟩) := by
  obtain ⟨out, h1, h2⟩ := csharp_default_partial (ema_contract o p hc hp) (fun c => c 0) 0 (xs ++ [v])
  have hr := ema_run o p hc hp (fun _ => v) 1
  rw [h2]
  have e : (List.drop ((xs ++ [v]).length - (max (0 : Int) (((0 : Nat) : Int) + 1)).toNat) (xs ++ [v])).map
      (fun v => (fun c : Nat → R => c 0) fun _ => v) = pre (fun _ => v) 1 := by
    simp [pre]
  rw [e, hr] at h1
  simp only [Except.ok.injEq, Prod.mk.injEq, true_and] at h1
  subst h1
  simp [pre, emaRec]

/-! ### Cases -/

section
variable [Num R]

/-- The streaming class of sma, in exact
arithmetic. -/
example (bars : List Rat) (hb : bars ≠ []) : ∃ out, smaBatch (opts [3]) bars = .ok (.okay, out) ∧ out.length = bars.length - 2 ∧
    csStream sma (opts [3]) bars = .ok (.ret (List.replicate (min 2 bars.length) ⟨none, false⟩ ++ out.map fun v => ⟨some v, true⟩)) :=
  csharp_stream (I := sma) (sma_contract (opts [3]) 3 (by decide +kernel) (by decide))
    (sma_stream_eq_batch (opts [3]) 3 (by decide +kernel) (by decide)) bars hb
example : csStream (R := Rat) sma (opts [2]) [1, 2, 4] = .ok (.ret [⟨none, false⟩, ⟨some (3/2), true⟩, ⟨some 3, true⟩]) := by
  decide +kernel
example : csStream (R := Rat) sma (opts [0]) [1, 2, 4] = .ok (.thrown .invalidOption) := by decide +kernel

/-- sma looks back `period - 1` bars. -/
theorem winMean_looksBack {R : Type} [Field R] (p : Nat) (hp : 1 ≤ p) : LooksBack (p - 1) (Spec.winMean (R := R) p) := by
  intro x y i j h
  unfold Spec.winMean Spec.winSum
  congr 1
  exact Finset.sum_congr rfl fun d hd => h d (by have := Finset.mem_range.1 hd; omega)

example (x : Nat → Rat) (N : Nat) (hN : 2 < N) :
    csDefault smaStart smaBatch 1 (fun c => c 0) (opts [3]) 0 ((pre x N).map fun v _ => v) =
      .ok (.ret ⟨some (Spec.winMean 3 x (N - 1 - 2)), true⟩) :=
  csharp_default_whole (sma_contract (opts [3]) 3 (by decide +kernel) (by decide))
    (sma_value (opts [3]) 3 (by decide +kernel) (by decide)) (winMean_looksBack 3 (by decide)) 0 x N hN

/-- medprice of a bar with high 3 and low 1 is 2; the class shows 1. -/
theorem csharp_medprice_violates : medpriceBatch (R := Rat) (opts []) [⟨3, 1⟩] = .ok (.okay, [2]) ∧
    csDefault start0 medpriceBatch 2 (fun c => ⟨c 0, c 1⟩) (opts []) 0 [fun c => if c = 0 then (3 : Rat) else 1] =
      .ok (.ret ⟨some 1, true⟩) := by decide +kernel

end
end Verif
