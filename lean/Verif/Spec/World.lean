/- C86: what a program may expect of many streams alive at the same time, in terms of each stream on its own. -/
import Verif.Model.World

namespace Verif
section
variable {R ρ ω : Type}

/-- The life of a stream so far: its indicator, its options and the chunks it was fed. -/
structure Life (R ρ : Type) where
  X : Name
  o : Nat → R
  chunks : List (List ρ)

/-- The indicator accepts the options. -/
def accepts (I : Indicator R ρ ω) (o : Nat → R) : Prop := ∃ p out, I.session o [] = .ok (.okay, p, out)

open Classical in
/-- The lives of the streams by address, after a call. -/
noncomputable def after (env : Name → Indicator R ρ ω) (L : Nat → Option (Life R ρ)) : Call R ρ → Nat → Option (Life R ρ)
  | .new X o a => if accepts (env X) o then Function.update L a (some ⟨X, o, []⟩) else L
  | .run a rows => Function.update L a ((L a).map fun l => { l with chunks := l.chunks ++ [rows] })
  | .free a => Function.update L a none
  | _ => L

/-- The lives of the streams by address, after a history of calls. -/
noncomputable def lives (env : Name → Indicator R ρ ω) (h : List (Call R ρ)) : Nat → Option (Life R ρ) := h.foldl (after env) fun _ => none

/-- A call a program may make: a stream is run, asked and freed only while it lives, what it is fed is safe for it were it alone, and the
allocator does not hand out a block in use. -/
def Allowed (env : Name → Indicator R ρ ω) (L : Nat → Option (Life R ρ)) : Call R ρ → Prop
  | .new X o a => (∃ r, (env X).session o [] = .ok r) ∧ (accepts (env X) o → L a = none)
  | .run a rows => ∃ l, L a = some l ∧ ∃ r, (env l.X).session l.o (l.chunks ++ [rows]) = .ok r
  | .progress a | .info a | .free a => ∃ l, L a = some l
  | .batch X o rows => ∃ r, (env X).batch o rows = .ok r

/-- The answer a call should get: what the stream would answer were it alone. -/
def Right (env : Name → Indicator R ρ ω) (L : Nat → Option (Life R ρ)) : Call R ρ → Answer ω → Prop
  | .new X o _, .code r => ∃ p out, (env X).session o [] = .ok (r, p, out)
  | .run a rows, .wrote w => ∃ l p p' out, L a = some l ∧ (env l.X).session l.o l.chunks = .ok (.okay, p, out) ∧
      (env l.X).session l.o (l.chunks ++ [rows]) = .ok (.okay, p', out ++ w)
  | .progress a, .progress p => ∃ l out, L a = some l ∧ (env l.X).session l.o l.chunks = .ok (.okay, p, out)
  | .info a, .info e => ∃ l, L a = some l ∧ e = some (l.X, true)
  | .free _, .freed => True
  | .batch X o rows, .batch r out => (env X).batch o rows = .ok (r, out)
  | _, _ => False

end
end Verif
