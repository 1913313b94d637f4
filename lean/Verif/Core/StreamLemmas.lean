/- Streams: reduction of the loops of `stream_run` to one bar at a time (helper lemmas). -/
import Verif.Core.Stream
import Verif.Core.Loops

namespace Verif
variable {ρ σ ω : Type}

/-- A loop that was left is never entered again, and the last loop takes everything. -/
def Phases.Ordered (phs : List (Phase ρ σ ω)) : Prop :=
  (∀ ph ∈ phs, ∀ p, ph.cond p = false → ph.cond (p + 1) = false) ∧
  ∀ p, ∃ ph ∈ phs, ph.cond p = true

/-- From progress `p0` on, a loop that was left is never entered again while the loops before it are not. -/
def Phases.Leaves : Int → List (Phase ρ σ ω) → Prop
  | _, [] => True
  | p0, ph :: phs => ∀ p, p0 ≤ p → ph.cond p = false → ph.cond (p + 1) = false ∧ Phases.Leaves p phs

/-- The same for the values of progress from `p0` on (a stream never goes below its initial progress). -/
def Phases.OrderedFrom (p0 : Int) (phs : List (Phase ρ σ ω)) : Prop :=
  Phases.Leaves p0 phs ∧ ∀ p, p0 ≤ p → ∃ ph ∈ phs, ph.cond p = true

theorem Phases.leaves_of {phs : List (Phase ρ σ ω)} : ∀ {p0 : Int},
    (∀ ph ∈ phs, ∀ p, p0 ≤ p → ph.cond p = false → ph.cond (p + 1) = false) → Phases.Leaves p0 phs := by
  induction phs with
  | nil => intros; trivial
  | cons ph phs ih =>
    intro p0 h p hp hc
    exact ⟨h ph (by simp) p hp hc, ih fun q hq p' hp' => h q (by simp [hq]) p' (by omega)⟩

theorem Phases.orderedFrom_of {phs : List (Phase ρ σ ω)} {p0 : Int}
    (h : (∀ ph ∈ phs, ∀ p, p0 ≤ p → ph.cond p = false → ph.cond (p + 1) = false) ∧
      ∀ p, p0 ≤ p → ∃ ph ∈ phs, ph.cond p = true) : Phases.OrderedFrom p0 phs := ⟨Phases.leaves_of h.1, h.2⟩

theorem Phases.Ordered.from {phs : List (Phase ρ σ ω)} (h : Phases.Ordered phs) (p0 : Int) :
    Phases.OrderedFrom p0 phs := Phases.orderedFrom_of ⟨fun ph hm p _ => h.1 ph hm p, fun p _ => h.2 p⟩

/-- What happens to one bar: the body of the first loop whose condition holds. -/
def barStep (phs : List (Phase ρ σ ω)) (p : Int) (r : ρ) (s : σ) : M (σ × List ω) :=
  match phs.find? (fun ph => ph.cond p) with
  | some ph => ph.body p r s
  | none => .ok (s, [])

def barFold (phs : List (Phase ρ σ ω)) : List ρ → Int → σ → M (Int × σ × List ω)
  | [], p, s => .ok (p, s, [])
  | r :: rs, p, s =>
    match barStep phs p r s with
    | .error e => .error e
    | .ok (s1, o1) =>
      match barFold phs rs (p + 1) s1 with
      | .error e => .error e
      | .ok (p', s', o') => .ok (p', s', o1 ++ o')

theorem cond_false_add {ph : Phase ρ σ ω} {p0 : Int}
    (h : ∀ p, p0 ≤ p → ph.cond p = false → ph.cond (p + 1) = false)
    (p : Int) (h0 : p0 ≤ p) (hp : ph.cond p = false) (n : Nat) : ph.cond (p + n) = false := by
  induction n with
  | zero => simpa using hp
  | succ n ih => have := h _ (by omega) ih; rw [← this]; congr 1; push_cast; omega

theorem barFold_skip (ph : Phase ρ σ ω) (phs : List (Phase ρ σ ω)) {p0 : Int}
    (h : ∀ p, p0 ≤ p → ph.cond p = false → ph.cond (p + 1) = false) :
    ∀ (rs : List ρ) (p : Int) (s : σ), p0 ≤ p → ph.cond p = false →
      barFold (ph :: phs) rs p s = barFold phs rs p s := by
  intro rs
  induction rs with
  | nil => intros; rfl
  | cons r rs ih =>
    intro p s h0 hp
    have e : barStep (ph :: phs) p r s = barStep phs p r s := by
      simp only [barStep, List.find?_cons, hp]
    simp only [barFold, e, ih _ _ (by omega) (h p h0 hp)]

theorem runPhases_nil_rows (phs : List (Phase ρ σ ω)) (p : Int) (s : σ) :
    runPhases phs [] p s = .ok (p, s, []) := by
  induction phs with
  | nil => rfl
  | cons ph phs ih => simp [runPhases, Phase.loop, ih]

theorem runPhases_eq_barFold_aux (phs : List (Phase ρ σ ω)) : ∀ (p0 : Int), Phases.Leaves p0 phs →
    ∀ (rs : List ρ) (p : Int) (s : σ), p0 ≤ p → (∀ n : Nat, ∃ ph ∈ phs, ph.cond (p + n) = true) →
      runPhases phs rs p s = barFold phs rs p s := by
  induction phs with
  | nil => intro _ _ rs p s _ h; obtain ⟨ph, hm, _⟩ := h 0; simp at hm
  | cons ph phs ih =>
    intro p0 hmono rs
    have hph : ∀ p, p0 ≤ p → ph.cond p = false → ph.cond (p + 1) = false := fun p h h' => (hmono p h h').1
    induction rs with
    | nil => intro p s _ _; rw [runPhases_nil_rows]; rfl
    | cons r rs ihr =>
      intro p s h0 hall
      by_cases hc : ph.cond p = true
      · have hall' : ∀ n : Nat, ∃ q ∈ ph :: phs, q.cond (p + 1 + n) = true := by
          intro n
          have := hall (n + 1)
          have e : p + 1 + (n : Int) = p + ((n + 1 : Nat) : Int) := by push_cast; omega
          rwa [e]
        have key := fun s1 => ihr (p + 1) s1 (by omega) hall'
        simp only [runPhases, Phase.loop, hc, if_true, barFold, barStep, List.find?_cons]
        cases hb : ph.body p r s with
        | error e => rfl
        | ok so =>
          obtain ⟨s1, o1⟩ := so
          have k := key s1
          simp only [runPhases] at k
          simp only
          rw [← k]
          cases ph.loop rs (p + 1) s1 with
          | error e => rfl
          | ok q =>
            obtain ⟨rs', p', s', o'⟩ := q
            simp only
            cases runPhases phs rs' p' s' with
            | error e => rfl
            | ok q2 => obtain ⟨p2, s2, o2⟩ := q2; simp
      · have hc' : ph.cond p = false := by simpa using hc
        rw [barFold_skip ph phs hph _ _ _ h0 hc']
        have hall' : ∀ n : Nat, ∃ q ∈ phs, q.cond (p + n) = true := by
          intro n
          obtain ⟨q, hq, hqc⟩ := hall n
          rcases List.mem_cons.1 hq with rfl | hq
          · rw [cond_false_add hph p h0 hc' n] at hqc; cases hqc
          · exact ⟨q, hq, hqc⟩
        have := ih p (hmono p h0 hc').2 (r :: rs) p s le_rfl hall'
        simp only [runPhases, Phase.loop, hc', Bool.false_eq_true, if_false]
        rw [this]
        cases barFold phs (r :: rs) p s with
        | error e => rfl
        | ok q => rfl

theorem runPhases_eq_barFold' {p0 : Int} {phs : List (Phase ρ σ ω)} (h : Phases.OrderedFrom p0 phs)
    (rs : List ρ) (p : Int) (hp : p0 ≤ p) (s : σ) : runPhases phs rs p s = barFold phs rs p s :=
  runPhases_eq_barFold_aux phs p0 h.1 rs p s hp (fun _ => h.2 _ (by omega))

theorem barFold_progress (phs : List (Phase ρ σ ω)) : ∀ (rs : List ρ) (p : Int) (s : σ) p' s' o',
    barFold phs rs p s = .ok (p', s', o') → p ≤ p' := by
  intro rs
  induction rs with
  | nil => intro p s p' s' o' h; cases h; exact le_rfl
  | cons r rs ih =>
    intro p s p' s' o' h
    simp only [barFold] at h
    cases hb : barStep phs p r s with
    | error e => rw [hb] at h; cases h
    | ok q =>
      obtain ⟨s1, o1⟩ := q
      rw [hb] at h
      simp only at h
      cases hf : barFold phs rs (p + 1) s1 with
      | error e => rw [hf] at h; cases h
      | ok q =>
        obtain ⟨p2, s2, o2⟩ := q
        rw [hf] at h
        cases h
        have := ih _ _ _ _ _ hf
        omega

theorem barFold_append (phs : List (Phase ρ σ ω)) : ∀ (as bs : List ρ) (p : Int) (s : σ),
    barFold phs (as ++ bs) p s =
      (match barFold phs as p s with
       | .error e => .error e
       | .ok (p1, s1, o1) =>
         match barFold phs bs p1 s1 with
         | .error e => .error e
         | .ok (p2, s2, o2) => .ok (p2, s2, o1 ++ o2)) := by
  intro as
  induction as with
  | nil =>
    intro bs p s
    simp only [List.nil_append, barFold]
    cases barFold phs bs p s with
    | error e => rfl
    | ok q => rfl
  | cons a as ih =>
    intro bs p s
    simp only [List.cons_append, barFold]
    cases barStep phs p a s with
    | error e => rfl
    | ok q =>
      obtain ⟨s1, o1⟩ := q
      simp only [ih]
      cases barFold phs as (p + 1) s1 with
      | error e => rfl
      | ok q1 =>
        obtain ⟨p1, s2, o2⟩ := q1
        simp only
        cases barFold phs bs p1 s2 with
        | error e => rfl
        | ok q2 => simp

theorem runs_eq_barFold' {R : Type} (I : Indicator R ρ ω) (k : I.κ) {p0 : Int}
    (h : Phases.OrderedFrom p0 (I.phases k)) :
    ∀ (cs : List (List ρ)) (p : Int) (s : I.σ), p0 ≤ p →
      I.runs k cs p s = barFold (I.phases k) cs.flatten p s := by
  intro cs
  induction cs with
  | nil => intros; rfl
  | cons c cs ih =>
    intro p s h0
    simp only [Indicator.runs, List.flatten_cons, barFold_append, runPhases_eq_barFold' h _ _ h0]
    cases hc : barFold (I.phases k) c p s with
    | error e => rfl
    | ok q =>
      obtain ⟨p1, s1, o1⟩ := q
      have := barFold_progress _ _ _ _ _ _ _ hc
      simp only [ih p1 s1 (by omega)]
      cases barFold (I.phases k) cs.flatten p1 s1 <;> rfl

theorem runs_eq_barFold {R : Type} (I : Indicator R ρ ω) (k : I.κ) (h : Phases.Ordered (I.phases k))
    (cs : List (List ρ)) (p : Int) (s : I.σ) : I.runs k cs p s = barFold (I.phases k) cs.flatten p s :=
  runs_eq_barFold' I k (h.from p) cs p s le_rfl

/-- Simulation: if `Inv n` describes the state after `n` bars of the signal `x` and every bar emits
`out n`, a run over any segment emits exactly these. -/
theorem barFold_spec {phs : List (Phase ρ σ ω)} (x : Nat → ρ) (p0 : Int) (out : Nat → List ω)
    (Inv : Nat → σ → Prop) (N : Nat)
    (step : ∀ n s, n < N → Inv n s →
      ∃ s', barStep phs (p0 + n) (x n) s = .ok (s', out n) ∧ Inv (n + 1) s') :
    ∀ (m n : Nat) (s : σ), n + m ≤ N → Inv n s →
      ∃ s', barFold phs (seg x n m) (p0 + n) s = .ok (p0 + (n + m : Nat), s', (seg out n m).flatten) ∧
        Inv (n + m) s' := by
  intro m
  induction m with
  | zero => intro n s _ h; exact ⟨s, rfl, h⟩
  | succ m ih =>
    intro n s hN h
    obtain ⟨s1, h1, hI⟩ := step n s (by omega) h
    obtain ⟨s2, h2, hI2⟩ := ih (n + 1) s1 (by omega) hI
    refine ⟨s2, ?_, ?_⟩
    · rw [seg_succ, seg_succ]
      simp only [barFold, h1, List.flatten_cons]
      have e : p0 + (n : Int) + 1 = p0 + ((n + 1 : Nat) : Int) := by push_cast; omega
      rw [e, h2]
      simp only [Except.ok.injEq, Prod.mk.injEq, and_true]
      omega
    · have e : n + 1 + m = n + (m + 1) := by omega
      rwa [e] at hI2

/-- Close one simulation step. -/
theorem ex_ok {P : σ → Prop} {s' : σ} {o o' : List ω} (ho : o = o') (hP : P s') :
    ∃ s, (Except.ok (s', o) : M (σ × List ω)) = .ok (s, o') ∧ P s := ⟨s', by rw [ho], hP⟩

/-- Every list is the start of some signal. -/
theorem exists_pre [Inhabited ρ] (xs : List ρ) : ∃ x : Nat → ρ, xs = pre x xs.length :=
  ⟨fun i => xs.getD i default, by
    apply List.ext_getElem
    · simp
    · intro i h1 h2; simp [pre, h1]⟩

end Verif
