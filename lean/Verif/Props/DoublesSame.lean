/- Streams that reproduce the batch result bit for bit in binary64. (Those that do so in any arithmetic are in the files of
their indicators; those that do not are in `Props/DoublesStream.lean`.) -/
import Verif.Proof.DoublesStream
import Verif.Proof.Trail
import Verif.Spec.DoubleData
import Verif.Core.Eval

namespace Verif
open F64
set_option linter.unusedSectionVars false

section
variable [Libm]

attribute [local irreducible] F64.ofInt F64.round F64.one F64.limit

/-- copp: the stream is created with the weight `1 / (w (w + 1) / 2)` computed in `int`, the batch call computes it in doubles:
the same double. -/
theorem copp_stream_double_partial (o : Nat → F64) (s l w : Nat) (h0 : o 0 = ((s : Int) : F64)) (h1 : o 1 = ((l : Int) : F64))
    (h2 : o 2 = ((w : Int) : F64)) (hs : 1 ≤ s) (hl : s ≤ l) (hw : 1 ≤ w) (hb : l + w ≤ 2147483646)
    (hb2 : w * (w + 1) ≤ 2147483647) : (copp (R := F64)).StreamEqBatch o (l + (w - 1)) := by
  have hr := copp_run o s l w h0 h1 h2 hs hl hw hb
  have hstr := copp_stream_run o s l w h0 h1 h2 hs hl hw hb hb2
  have e : ((w : Int) : F64) * (((w : Int) : F64) + ((1 : Int) : F64)) / ((2 : Int) : F64) = ((Int.tdiv (w * (w + 1)) 2 : Int) : F64) := by
    obtain ⟨m, hm⟩ := Nat.even_mul_succ_self w
    have hm' : (w : Int) * (w + 1) = 2 * (m : Int) := by
      have : ((w * (w + 1) : Nat) : Int) = ((m + m : Nat) : Int) := by rw [hm]
      push_cast at this
      omega
    have hm1 : 1 ≤ m := by
      rcases Nat.eq_zero_or_pos m with rfl | h
      · have : 1 ≤ w * (w + 1) := Nat.mul_pos hw (Nat.succ_pos _)
        omega
      · exact h
    have hb2' : (w : Int) * (w + 1) ≤ 2147483647 := by exact_mod_cast hb2
    rw [IntExact.add _ _ (by unfold Small; omega) (by unfold Small; omega) (by unfold Small; omega),
      IntExact.mul _ _ (by unfold Small; omega) (by unfold Small; omega) (by rw [hm']; unfold Small; omega) (Or.inl (by omega)),
      hm', half_int m (by unfold Small; omega) hm1]
    congr 1
    rw [Int.mul_tdiv_cancel_left _ (by omega)]
  rw [← e] at hstr
  exact streamEqBatch_of hr hstr

/-- edcf on whole-number lengths. -/
theorem edcf_stream_double_partial (o : Nat → F64) (p : Nat) (ho : o 0 = ((p : Int) : F64)) (hp : 1 ≤ p) (hb : p ≤ 1073741823) :
    (edcf (R := F64)).StreamEqBatch o (2 * p - 1) := by
  have h1 : ¬ o 0 < ((1 : Int) : F64) := by
    rw [ho, IntExact.lt _ _ (by omega) (by unfold Small; omega)]; omega
  have e2 : ((2 : Int) : F64) * o 0 = (((2 * p : Nat) : Int) : F64) := by
    rw [ho, IntExact.mul _ _ (by unfold Small; omega) (by unfold Small; omega) (by unfold Small; omega) (Or.inl (by omega))]
    congr 1
  have h2 : edcfStart o = .ok ((2 * p - 1 : Nat) : Int) := by
    rw [def1, e2, IntExact.sub _ _ (by unfold Small; omega) (by unfold Small; omega) (by unfold Small; omega),
      show ((2 * p : Nat) : Int) - 1 = ((2 * p - 1 : Nat) : Int) by omega, toInt_nat _ (by omega)]
  have h3 : vecSize (((2 : Int) : F64) * o 0) = .ok ((2 * p : Nat) : Int) := by
    rw [e2, def2, toInt_nat _ (by omega), bind_ok, if_neg (by omega)]; rfl
  have h4 : bound (o 0) = .ok (p : Int) := by
    rw [def3, ho, ceil_int p (by unfold Small; omega) hp, toInt_nat _ (by omega)]
  exact streamEqBatch_of (edcf_run o p (2 * p) (2 * p - 1) h1 h2 h3 h4 hp (by omega) (by omega))
    (edcf_stream_run o p (2 * p) (2 * p - 1) h1 h2 h3 h4 hp (by omega) (by omega))
where
  def1 {R : Type} [Num R] (o : Nat → R) : edcfStart o = toInt (c! 2 * o 0 - c! 1) := rfl
  def2 {R : Type} [Num R] (v : R) : vecSize v = (toInt v >>= fun n => if n < 0 then .error .intRange else pure n) := rfl
  def3 {R : Type} [Num R] (v : R) : bound v = toInt (CMath.ceil v) := rfl

/-- pfe on whole-number periods. -/
theorem pfe_stream_double_partial (o : Nat → F64) (p e : Nat) (h0 : o 0 = ((p : Int) : F64)) (h1 : o 1 = ((e : Int) : F64))
    (hp : 1 ≤ p) (he : 1 ≤ e) (hb : p < 2147483647) (hbe : e ≤ 2147483647) : (pfe (R := F64)).StreamEqBatch o p := by
  have hcp : toInt (o 0) = .ok (p : Int) := by rw [h0, toInt_nat _ (by omega)]
  have hce : toInt (o 1) = .ok (e : Int) := by rw [h1, toInt_nat _ (by omega)]
  have hr : toInt (o 0 + ((1 : Int) : F64)) = .ok ((p + 1 : Nat) : Int) := by
    rw [h0, IntExact.add _ _ (by unfold Small; omega) (by unfold Small; omega) (by unfold Small; omega),
      show (p : Int) + 1 = ((p + 1 : Nat) : Int) by omega, toInt_nat _ (by omega)]
  have l0 : ¬ o 0 < ((1 : Int) : F64) := by rw [h0, IntExact.lt _ _ (by omega) (by unfold Small; omega)]; omega
  have l1 : ¬ o 1 < ((1 : Int) : F64) := by rw [h1, IntExact.lt _ _ (by omega) (by unfold Small; omega)]; omega
  have h := pfe_stream_run o p e hcp hce hp l0 l1 hr
  rw [h1] at h
  exact streamEqBatch_of (pfe_run o p e hcp hce hp he) h

/-- rmi on positive finite prices. -/
theorem rmi_stream_double_partial (o : Nat → F64) (p : Nat) (h0 : ¬ o 0 < ((1 : Int) : F64)) (ho : o 1 = ((p : Int) : F64))
    (hp : 1 ≤ p) (hb : p < 2147483647) (chunks : List (List F64)) (hx : ∀ v ∈ chunks.flatten, IsFin v ∧ 0 < val v) :
    ∃ out, (rmi (R := F64)).batch o chunks.flatten = .ok (.okay, out) ∧
      (rmi (R := F64)).session o chunks = .ok (.okay, (chunks.flatten.length : Int) - p, out) := by
  have l1 : ¬ o 1 < ((1 : Int) : F64) := by rw [ho, IntExact.lt _ _ (by omega) (by unfold Small; omega)]; omega
  have hc : toInt (o 1) = .ok (p : Int) := by rw [ho, toInt_nat _ (by omega)]
  have ea : o 1 + ((1 : Int) : F64) = (((p + 1 : Nat) : Int) : F64) := by
    rw [ho, IntExact.add _ _ (by unfold Small; omega) (by unfold Small; omega) (by unfold Small; omega)]
    congr 1
  have hr : toInt (o 1 + ((1 : Int) : F64)) = .ok ((p + 1 : Nat) : Int) := by rw [ea, toInt_nat _ (by omega)]
  have hcmp : ∀ N : Nat, ((N : Int) : F64) < o 1 + ((1 : Int) : F64) ↔ N < p + 1 := by
    intro N; rw [ea]; exact nat_lt N (p + 1) (by omega)
  obtain ⟨x, hxe, hxp⟩ := pre_of_all chunks.flatten hx
  have hr1 := rmi_run o p h0 l1 hc hcmp x chunks.flatten.length
  have hs1 := rmi_stream_run o p h0 l1 hc hr x chunks.flatten.length chunks hxe.symm
  rw [hxe] at hr1
  refine ⟨_, hr1, ?_⟩
  rw [hs1]
  have : rmiValS o p x = rmiVal o p x := funext fun j => rmiVal_same o p x hxp j
  rw [this]

/-- fi, if the force of the second bar is finite and not zero (`fi_stream_double_violates`). -/
theorem fi_stream_double_partial (o : Nat → F64) (p : Nat) (ho : o 0 = ((p : Int) : F64)) (hp : 1 ≤ p) (hb : p < 2147483647)
    (a b : CV F64) (rest : List (CV F64)) (h1 : IsFin (b.volume * (b.close - a.close))) (h2 : val (b.volume * (b.close - a.close)) ≠ 0)
    (chunks : List (List (CV F64))) (hx : chunks.flatten = a :: b :: rest) :
    ∃ out, (fi (R := F64)).batch o chunks.flatten = .ok (.okay, out) ∧
      (fi (R := F64)).session o chunks = .ok (.okay, (chunks.flatten.length : Int) - 1, out) := by
  have h : ¬ o 0 < ((1 : Int) : F64) := by rw [ho, IntExact.lt _ _ (by omega) (by unfold Small; omega)]; omega
  have hf : IsFin (((2 : Int) : F64) / (o 0 + ((1 : Int) : F64))) := by
    have s0 : Small 0 := by unfold Small; omega
    have s1 : Small 1 := by unfold Small; omega
    have s2 : Small 2 := by unfold Small; omega
    have sp : Small ((p : Int) + 1) := by unfold Small; omega
    rw [ho, IntExact.add _ _ (by unfold Small; omega) s1 sp]
    have hq : (0 : Rat) < ((p : Int) + 1 : Int) := by exact_mod_cast (by omega : (0 : Int) < (p : Int) + 1)
    refine ((F64.div_rounds (small_fin 2 s2) (small_fin _ sp) (by rw [small_val _ sp]; exact hq.ne')).between
      (small_fin 0 s0) (small_fin 1 s1) ?_ ?_).1
    · rw [small_val _ s0, small_val _ s2, small_val _ sp, Int.cast_zero]
      positivity
    · rw [small_val _ s1, small_val _ s2, small_val _ sp, Int.cast_one, div_le_one hq]
      exact_mod_cast (by omega : (2 : Int) ≤ (p : Int) + 1)
  have : Inhabited (CV F64) := ⟨a⟩
  obtain ⟨x, hxe⟩ := exists_pre chunks.flatten
  have hr1 := fi_run o h x chunks.flatten.length
  have hs1 := fi_stream_run o h x chunks.flatten.length chunks hxe
  rw [← hxe] at hr1
  refine ⟨_, hr1, ?_⟩
  rw [hs1]
  have hl : chunks.flatten.length = rest.length + 2 := by rw [hx]; rfl
  have ex : pre x (rest.length + 2) = a :: b :: rest := by rw [← hl, ← hxe, hx]
  have e0 : x 0 = a := by
    have := congrArg (fun l => l[0]?) ex
    simpa [pre] using this
  have e1 : x 1 = b := by
    have := congrArg (fun l => l[1]?) ex
    simpa [pre] using this
  have es : fiSig x 0 = b.volume * (b.close - a.close) := by rw [sig, e0, e1]
  have : emaRec (fiPer o) (fiSig x) = fiRec (fiPer o) (fiSig x) :=
    funext fun j => (fiRec_same (by rw [per]; exact hf) (fiSig x) (by rw [es]; exact h1) (by rw [es]; exact h2) j).symm
  beta_reduce
  rw [this]
  rfl
where
  sig {R : Type} [Num R] (x : Nat → CV R) : fiSig x 0 = (x 1).volume * ((x 1).close - (x 0).close) := rfl
  per {R : Type} [Num R] (o : Nat → R) : fiPer o = c! 2 / (o 0 + c! 1) := rfl

end

/-! ### Cases that meet the hypotheses -/

section
variable [Libm]

attribute [local irreducible] F64.ofInt F64.round F64.one F64.limit

example : (copp (R := F64)).StreamEqBatch (optsD [11, 14, 10]) 23 :=
  copp_stream_double_partial (optsD [11, 14, 10]) 11 14 10 rfl rfl rfl (by omega) (by omega) (by omega) (by omega) (by omega)
example : (edcf (R := F64)).StreamEqBatch (optsD [15]) 29 := edcf_stream_double_partial (optsD [15]) 15 rfl (by omega) (by omega)
example : (pfe (R := F64)).StreamEqBatch (optsD [10, 5]) 10 :=
  pfe_stream_double_partial (optsD [10, 5]) 10 5 rfl rfl (by omega) (by omega) (by omega) (by omega)
example : ∃ out, (rmi (R := F64)).batch (optsD [4, 2]) [((101 : Int) : F64), ((99 : Int) : F64), ((107 : Int) : F64)] = .ok (.okay, out) ∧
    (rmi (R := F64)).session (optsD [4, 2]) [[((101 : Int) : F64)], [((99 : Int) : F64), ((107 : Int) : F64)]] = .ok (.okay, 1, out) := by
  have hv : ∀ n : Int, Small n → 0 < n → IsFin (n : F64) ∧ 0 < val (n : F64) := fun n h h0 =>
    ⟨small_fin n h, by rw [small_val n h]; exact_mod_cast h0⟩
  have ho : ∀ k : Int, optsD [4, k] 1 = (k : F64) := fun _ => rfl
  refine rmi_stream_double_partial (optsD [4, 2]) 2 ?_ (ho 2) (by omega) (by omega)
    [[((101 : Int) : F64)], [((99 : Int) : F64), ((107 : Int) : F64)]] ?_
  · show ¬ ((4 : Int) : F64) < ((1 : Int) : F64)
    rw [IntExact.lt _ _ (by omega) (by unfold Small; omega)]; omega
  · intro v hm
    simp only [List.flatten_cons, List.flatten_nil, List.append_nil, List.cons_append, List.nil_append, List.mem_cons,
      List.not_mem_nil, or_false] at hm
    rcases hm with rfl | rfl | rfl
    · exact hv 101 (by unfold Small; omega) (by omega)
    · exact hv 99 (by unfold Small; omega) (by omega)
    · exact hv 107 (by unfold Small; omega) (by omega)

example : IsFin (((7 : Int) : F64) * (((3 : Int) : F64) - ((5 : Int) : F64))) ∧
    val (((7 : Int) : F64) * (((3 : Int) : F64) - ((5 : Int) : F64))) ≠ 0 := by
  rw [IntExact.sub _ _ (by unfold Small; omega) (by unfold Small; omega) (by unfold Small; omega),
    IntExact.mul _ _ (by unfold Small; omega) (by unfold Small; omega) (by unfold Small; omega) (Or.inr (by omega))]
  exact ⟨small_fin _ (by unfold Small; omega), by rw [small_val _ (by unfold Small; omega)]; norm_num⟩

end
end Verif
