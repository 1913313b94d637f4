/- C86: streams that are alive at the same time do not disturb one another. -/
import Verif.Spec.World
import Verif.Proof.Table
import Verif.Core.RatInst
import Verif.Model.Sum
import Verif.Model.Flow

namespace Verif
section
variable {R ρ ω : Type}

theorem runs_extend (I : Indicator R ρ ω) (k : I.κ) (c : List ρ) : ∀ (cs : List (List ρ)) (p : Int) (s : I.σ),
    I.runs k (cs ++ [c]) p s = match I.runs k cs p s with
      | .error e => .error e
      | .ok (p1, s1, o1) => match runPhases (I.phases k) c p1 s1 with
        | .error e => .error e
        | .ok (p2, s2, o2) => .ok (p2, s2, o1 ++ o2)
  | [], p, s => by
    simp only [List.nil_append, Indicator.runs]
    cases runPhases (I.phases k) c p s with
    | error e => rfl
    | ok r => simp
  | b :: cs, p, s => by
    simp only [List.cons_append, Indicator.runs]
    cases runPhases (I.phases k) b p s with
    | error e => rfl
    | ok r =>
      obtain ⟨p1, s1, o1⟩ := r
      simp only [runs_extend I k c cs p1 s1]
      cases I.runs k cs p1 s1 with
      | error e => rfl
      | ok r =>
        obtain ⟨p2, s2, o2⟩ := r
        dsimp only
        cases runPhases (I.phases k) c p2 s2 with
        | error e => rfl
        | ok r => simp

/-- The object is the one its life leads to. -/
def Rep1 (env : Name → Indicator R ρ ω) (d : List (Name × Bool)) : Option (StreamObj env) → Option (Life R ρ) → Prop
  | none, none => True
  | some st, some l => (l.X, true) ∈ d ∧ ∃ k p0 s0 p s out, (env l.X).new l.o = .ok (.made k p0 s0) ∧ (env l.X).runs k l.chunks p0 s0 = .ok (p, s, out) ∧
      st = ⟨enumIndex d l.X, p, l.X, k, s⟩
  | _, _ => False

theorem rep_update {env : Name → Indicator R ρ ω} {d : List (Name × Bool)} {heap : Heap env} {L : Nat → Option (Life R ρ)} (h : ∀ a, Rep1 env d (heap a) (L a))
    (a : Nat) (st : Option (StreamObj env)) (l : Option (Life R ρ)) (hl : Rep1 env d st l) : ∀ b, Rep1 env d (heap.put a st b) (Function.update L a l b) := by
  intro b
  by_cases e : b = a
  · subst e; simpa [Heap.put] using hl
  · simpa [Heap.put, e] using h b

theorem rep_live {env : Name → Indicator R ρ ω} {d : List (Name × Bool)} {heap : Heap env} {L : Nat → Option (Life R ρ)} (h : ∀ a, Rep1 env d (heap a) (L a)) (a : Nat) :
    (heap a = none ∧ L a = none) ∨ ∃ l k p0 s0 p s out, L a = some l ∧ (l.X, true) ∈ d ∧ (env l.X).new l.o = .ok (.made k p0 s0) ∧
      (env l.X).runs k l.chunks p0 s0 = .ok (p, s, out) ∧ heap a = some ⟨enumIndex d l.X, p, l.X, k, s⟩ := by
  have := h a
  cases e1 : heap a with
  | none =>
    cases e2 : L a with
    | none => exact Or.inl ⟨rfl, rfl⟩
    | some l => rw [e1, e2] at this; exact this.elim
  | some st =>
    cases e2 : L a with
    | none => rw [e1, e2] at this; exact this.elim
    | some l =>
      rw [e1, e2] at this
      obtain ⟨hd, k, p0, s0, p, s, out, h1, h2, rfl⟩ := this
      exact Or.inr ⟨l, k, p0, s0, p, s, out, rfl, hd, h1, h2, rfl⟩

theorem session_of {I : Indicator R ρ ω} {o : Nat → R} {k : I.κ} {p0 : Int} {s0 : I.σ} (h : I.new o = .ok (.made k p0 s0)) (cs : List (List ρ)) :
    I.session o cs = match I.runs k cs p0 s0 with
    | .error e => .error e
    | .ok (p', _, out) => .ok (.okay, p', out) := by
  unfold Indicator.session; rw [h]; rfl

theorem call_step (env : Name → Indicator R ρ ω) (d : List (Name × Bool)) (hd : (d.map Prod.fst).Nodup) (hnew : ∀ X o, (env X).new o ≠ .ok (.fail .okay))
    (heap : Heap env) (L : Nat → Option (Life R ρ)) (h : ∀ a, Rep1 env d (heap a) (L a)) (c : Call R ρ) (hc : ∀ X o a, c = .new X o a → (X, true) ∈ d) :
    match callOne env d heap c with
    | .error _ => ¬ Allowed env L c
    | .ok (heap', a) => Allowed env L c ∧ Right env L c a ∧ ∀ b, Rep1 env d (heap' b) (after env L c b) := by
  cases c with
  | new X o a =>
    have hX := hc X o a rfl
    simp only [callOne, newStream]
    cases hn : (env X).new o with
    | error e =>
      rintro ⟨⟨r, hr⟩, _⟩
      simp [Indicator.session, hn] at hr
    | ok r =>
      cases r with
      | fail r =>
        have hs : (env X).session o [] = .ok (r, 0, []) := by simp [Indicator.session, hn]
        have hr : r ≠ .okay := fun e => hnew X o (by rw [hn, e])
        have ha : ¬ accepts (env X) o := by
          rintro ⟨p, out, e⟩
          rw [hs] at e
          simp only [Except.ok.injEq, Prod.mk.injEq] at e
          exact hr e.1
        refine ⟨⟨⟨_, hs⟩, fun h => absurd h ha⟩, ⟨_, _, hs⟩, ?_⟩
        simp only [after, if_neg ha]
        exact h
      | made k p s =>
        have hs : (env X).session o [] = .ok (.okay, p, []) := by simp [Indicator.session, hn, Indicator.runs]
        have ha : accepts (env X) o := ⟨_, _, hs⟩
        rcases rep_live h a with ⟨h1, h2⟩ | ⟨l, k', p0, s0, p', s', out, h1, _, _, _, h2⟩
        · simp only [bind_ok, h1, Option.isSome_none, Bool.false_eq_true, if_false]
          refine ⟨⟨⟨_, hs⟩, fun _ => h2⟩, ⟨_, _, hs⟩, ?_⟩
          simp only [after, if_pos ha]
          exact rep_update h a _ _ ⟨hX, k, p, s, p, s, [], hn, rfl, rfl⟩
        · simp only [bind_ok, h2, Option.isSome_some, if_true]
          rintro ⟨_, hf⟩
          rw [hf ha] at h1
          cases h1
  | run a rows =>
    rcases rep_live h a with ⟨h1, h2⟩ | ⟨l, k, p0, s0, p, s, out, h1, hX, hn, hr, h2⟩
    · simp only [callOne, Heap.deref, h1, bind_error]
      rintro ⟨l, hl, _⟩
      rw [h2] at hl; cases hl
    · simp only [callOne, Heap.deref, h2, bind_ok, tiStreamRun, enumIndex_spec d hd (l.X, true) hX, entryFn, runStream, if_true]
      have hs := session_of hn l.chunks
      have hs' := session_of hn (l.chunks ++ [rows])
      rw [hr] at hs
      rw [runs_extend, hr] at hs'
      dsimp only at hs hs'
      cases hp : runPhases ((env l.X).phases k) rows p s with
      | error e =>
        rw [hp] at hs'
        rintro ⟨l', hl, r, hr'⟩
        rw [h1] at hl; cases hl
        rw [hs'] at hr'; cases hr'
      | ok r =>
        obtain ⟨p', s', w⟩ := r
        rw [hp] at hs'
        refine ⟨⟨l, h1, _, hs'⟩, ⟨l, p, p', out, h1, hs, hs'⟩, ?_⟩
        simp only [after, h1, Option.map_some]
        exact rep_update h a _ _ ⟨hX, k, p0, s0, p', s', out ++ w, hn, by rw [runs_extend, hr]; dsimp only; rw [hp], rfl⟩
  | progress a =>
    rcases rep_live h a with ⟨h1, h2⟩ | ⟨l, k, p0, s0, p, s, out, h1, hX, hn, hr, h2⟩
    · simp only [callOne, Heap.deref, h1, bind_error]
      rintro ⟨l, hl⟩
      rw [h2] at hl; cases hl
    · simp only [callOne, Heap.deref, h2, bind_ok]
      exact ⟨⟨l, h1⟩, ⟨l, out, h1, by rw [session_of hn, hr]; rfl⟩, h⟩
  | info a =>
    rcases rep_live h a with ⟨h1, h2⟩ | ⟨l, k, p0, s0, p, s, out, h1, hX, hn, hr, h2⟩
    · simp only [callOne, Heap.deref, h1, bind_error]
      rintro ⟨l, hl⟩
      rw [h2] at hl; cases hl
    · simp only [callOne, Heap.deref, h2, bind_ok, tiStreamInfo, enumIndex_spec d hd (l.X, true) hX]
      exact ⟨⟨l, h1⟩, ⟨l, h1, rfl⟩, h⟩
  | free a =>
    rcases rep_live h a with ⟨h1, h2⟩ | ⟨l, k, p0, s0, p, s, out, h1, hX, hn, hr, h2⟩
    · simp only [callOne, Heap.deref, h1, bind_error]
      rintro ⟨l, hl⟩
      rw [h2] at hl; cases hl
    · simp only [callOne, Heap.deref, h2, bind_ok, tiStreamFree, enumIndex_spec d hd (l.X, true) hX, entryFn, freeStream, if_true]
      exact ⟨⟨l, h1⟩, trivial, rep_update h a _ _ trivial⟩
  | batch X o rows =>
    simp only [callOne]
    cases hb : (env X).batch o rows with
    | error e =>
      rintro ⟨r, hr⟩
      rw [hb] at hr; cases hr
    | ok r =>
      obtain ⟨r, out⟩ := r
      exact ⟨⟨_, hb⟩, hb, h⟩

theorem call_all (env : Name → Indicator R ρ ω) (d : List (Name × Bool)) (hd : (d.map Prod.fst).Nodup) (hnew : ∀ X o, (env X).new o ≠ .ok (.fail .okay)) :
    ∀ (cs : List (Call R ρ)) (heap : Heap env) (L : Nat → Option (Life R ρ)), (∀ a, Rep1 env d (heap a) (L a)) → (∀ X o a, .new X o a ∈ cs → (X, true) ∈ d) →
    match callAll env d cs heap with
    | .error _ => ¬ ∀ i (hi : i < cs.length), Allowed env ((cs.take i).foldl (after env) L) cs[i]
    | .ok (heap', as) => (∀ i (hi : i < cs.length), Allowed env ((cs.take i).foldl (after env) L) cs[i]) ∧ as.length = cs.length ∧
        (∀ i (hi : i < cs.length) (hi' : i < as.length), Right env ((cs.take i).foldl (after env) L) cs[i] as[i]) ∧ ∀ a, Rep1 env d (heap' a) (cs.foldl (after env) L a)
  | [], heap, L, h, _ => by simpa [callAll] using h
  | c :: cs, heap, L, h, hX => by
    have st := call_step env d hd hnew heap L h c fun X o a e => hX X o a (by simp [e])
    unfold callAll
    cases h1 : callOne env d heap c with
    | error e =>
      rw [h1] at st
      rw [bind_error]
      exact fun hall => st (hall 0 (by simp))
    | ok r =>
      obtain ⟨heap1, a⟩ := r
      rw [h1] at st
      obtain ⟨s1, s2, s3⟩ := st
      have ih := call_all env d hd hnew cs heap1 (after env L c) s3 fun X o a e => hX X o a (by simp [e])
      simp only [bind_ok]
      cases h2 : callAll env d cs heap1 with
      | error e =>
        rw [h2] at ih
        rw [bind_error]
        exact fun hall => ih fun i hi => hall (i + 1) (Nat.succ_lt_succ hi)
      | ok r =>
        obtain ⟨heap2, as⟩ := r
        rw [h2] at ih
        obtain ⟨i1, i2, i3, i4⟩ := ih
        refine ⟨fun i hi => ?_, by simp [i2], fun i hi hi' => ?_, i4⟩
        · cases i with
          | zero => exact s1
          | succ i => exact i1 i (Nat.lt_of_succ_lt_succ hi)
        · cases i with
          | zero => exact s2
          | succ i => exact i3 i (Nat.lt_of_succ_lt_succ hi) (Nat.lt_of_succ_lt_succ hi')

/-- A program with any number of streams alive runs without undefined behaviour exactly if every call is allowed: streams are used between
their `stream_new` and their `stream_free`, what each is fed would be safe were it alone, and the allocator does not hand out a block in use. -/
theorem streams_safe (env : Name → Indicator R ρ ω) (d : List (Name × Bool)) (hd : (d.map Prod.fst).Nodup) (hnew : ∀ X o, (env X).new o ≠ .ok (.fail .okay))
    (h : List (Call R ρ)) (hX : ∀ X o a, .new X o a ∈ h → (X, true) ∈ d) :
    (∃ r, callAll env d h (fun _ => none) = .ok r) ↔ ∀ i (hi : i < h.length), Allowed env (lives env (h.take i)) h[i] := by
  have := call_all env d hd hnew h (fun _ => none) (fun _ => none) (fun _ => trivial) hX
  cases e : callAll env d h (fun _ => none) with
  | error x =>
    rw [e] at this
    exact ⟨fun h => (by obtain ⟨r, hr⟩ := h; cases hr), fun hall => absurd hall this⟩
  | ok r =>
    obtain ⟨heap, as⟩ := r
    rw [e] at this
    exact ⟨fun _ => this.1, fun _ => ⟨_, rfl⟩⟩

/-- Every answer is the one the stream would give were it alone, whatever was done with other streams in between, also with streams that lived
at the same address before; and a batch call answers the same at any time. -/
theorem streams_apart (env : Name → Indicator R ρ ω) (d : List (Name × Bool)) (hd : (d.map Prod.fst).Nodup) (hnew : ∀ X o, (env X).new o ≠ .ok (.fail .okay))
    (h : List (Call R ρ)) (hX : ∀ X o a, .new X o a ∈ h → (X, true) ∈ d) (heap : Heap env) (as : List (Answer ω))
    (hr : callAll env d h (fun _ => none) = .ok (heap, as)) :
    as.length = h.length ∧ (∀ i (hi : i < h.length) (hi' : i < as.length), Right env (lives env (h.take i)) h[i] as[i]) ∧
      ∀ a, heap a = none ↔ lives env h a = none := by
  have := call_all env d hd hnew h (fun _ => none) (fun _ => none) (fun _ => trivial) hX
  rw [hr] at this
  obtain ⟨_, h1, h2, h3⟩ := this
  refine ⟨h1, h2, fun a => ?_⟩
  rcases rep_live h3 a with ⟨e1, e2⟩ | ⟨l, k, p0, s0, p, s, out, e1, _, _, _, e2⟩
  · exact ⟨fun _ => e2, fun _ => e1⟩
  · rw [e2]
    change _ ↔ h.foldl (after env) (fun _ => none) a = none
    rw [e1]; simp

end

/- Two moving averages fed in turns; the second takes the place of the first after it is freed. -/
def smas : Name → Indicator ℚ ℚ ℚ := fun _ => sma
def turns : List (Call ℚ ℚ) :=
  [.new (bytes "sma") (opts [2]) 7, .new (bytes "sma") (opts [3]) 9, .run 7 [1, 2], .run 9 [10, 20], .progress 9, .new (bytes "sma") (opts [0]) 7,
   .batch (bytes "sma") (opts [2]) [4, 6], .run 7 [3], .run 9 [30, 40], .free 7, .new (bytes "sma") (opts [1]) 7, .run 7 [5], .info 7, .free 9, .free 7]

example : (match callAll smas indicatorsYaml turns (fun _ => none) with | .ok (_, as) => as.map (fun a => match a with | .wrote w => w | .progress p => [(p : ℚ)] | .batch _ w => w | _ => []) | .error _ => [])
    = [[], [], [3/2], [], [0], [], [5], [5/2], [20, 30], [], [], [5], [], [], []] := by decide +kernel
example : (indicatorsYaml.map Prod.fst).Nodup ∧ ∀ X o a, Call.new X o a ∈ turns → (X, true) ∈ indicatorsYaml := by
  refine ⟨by decide +kernel, fun X o a h => ?_⟩
  have : X = bytes "sma" := by
    simp only [turns, List.mem_cons, List.not_mem_nil, or_false, Call.new.injEq, reduceCtorEq, false_or] at h
    rcases h with h | h | h | h <;> exact h.1
  rw [this]; decide +kernel
example : ∀ X o, (smas X).new o ≠ .ok (.fail .okay) := fun X o h => by
  simp only [smas, sma, smaNew] at h
  cases e : toInt (o 0) with
  | error x => rw [e] at h; cases h
  | ok p =>
    rw [e] at h
    simp only [bind_ok] at h
    split at h
    · cases h
    · cases e1 : smaStart o with
      | error x => rw [e1] at h; cases h
      | ok st =>
        rw [e1, bind_ok] at h
        cases e2 : Ring.make (R := ℚ) p with
        | error x => rw [e2] at h; cases h
        | ok r => rw [e2] at h; cases h
/- A stream used after it was freed, and one freed twice. -/
example : (callAll smas indicatorsYaml [.new (bytes "sma") (opts [2]) 7, .free 7, .run 7 [1]] (fun _ => none)).toBool = false := by decide +kernel
example : (callAll smas indicatorsYaml [.new (bytes "sma") (opts [2]) 7, .free 7, .free 7] (fun _ => none)).toBool = false := by decide +kernel
end Verif
