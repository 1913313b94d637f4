/-
C04: how many values a stream has written and its progress, from its contract and its agreement with the batch call. The hypotheses are those
of the agreement (C35).
-/
import Verif.Props.Progress
import Verif.Props.Average
import Verif.Props.Chan
import Verif.Props.Cycle
import Verif.Props.Filters
import Verif.Props.Flow
import Verif.Props.Fractal
import Verif.Props.Hampel
import Verif.Props.Rank
import Verif.Props.Regress
import Verif.Props.Smooth
import Verif.Props.Sum
import Verif.Props.Trail
import Verif.Props.Window

namespace Verif
set_option linter.unusedSectionVars false
set_option linter.unusedVariables false

/-- Supplies the hypotheses of a contract from the context. -/
macro "account_contract" c:ident : tactic => `(tactic| (
  apply $c:ident <;> first
    | assumption
    | omega
    | exact toInt_cast' (by assumption) (by omega)
    | (push_cast; exact not_lt.2 (by assumption))
    | (push_cast; linarith)
    | (simp only [*]; norm_cast; done)))

theorem ahma_accounts_partial {R : Type} [Num R] (o : Nat → R) (p : Nat) (hc : toInt (o 0) = .ok (p : Int)) (hp : 1 ≤ p) (hb : p < 2147483647) :
    (ahma (R := R)).Accounts o 0 :=
  accounts_of (by account_contract ahma_contract) (ahma_stream_eq_batch_partial o p hc hp hb)

theorem ehma_accounts_partial {R : Type} [Field R] [LinearOrder R] [IsStrictOrderedRing R] [CMath R] (o : Nat → R) (p : Nat) (hc : toInt (o 0) = .ok (p : Int)) (hp : 1 ≤ p) (hb : p < 2147483647) :
    (ehma (R := R)).Accounts o 0 :=
  accounts_of (by account_contract ehma_contract) (ehma_stream_eq_batch_partial o p hc hp hb)

theorem idwma_accounts {R : Type} [Num R] [IntExact R] (o : Nat → R) (p : Nat) (hc : toInt (o 0) = .ok (p : Int)) (hp : 1 ≤ p) (h1 : ¬ o 1 < c! 1) (h2 : ¬ c! 2 < o 1) :
    (idwma (R := R)).Accounts o (p - 1) :=
  accounts_of (by account_contract idwma_contract) (idwma_stream_eq_batch o p hc hp h1 h2)

theorem lma_accounts_partial {R : Type} [Field R] [LinearOrder R] [IsStrictOrderedRing R] [CMath R] [LawfulTrunc R] [LawfulRound R] (o : Nat → R) (p : Nat) (ho : o 0 = ((p : Int) : R)) (hp : 1 ≤ p) (hb : p ≤ 2147483647) :
    (lma (R := R)).Accounts o (p - 1) :=
  accounts_of (by account_contract lma_contract) (lma_stream_eq_batch_partial o p ho hp hb)

theorem shmma_accounts_partial {R : Type} [Num R] [IntExact R] (o : Nat → R) (p : Nat) (hc : toInt (o 0) = .ok (p : Int)) (hp : 1 ≤ p) (hb : (p + 1) * p ≤ 2147483647) :
    (shmma (R := R)).Accounts o (p - 1) :=
  accounts_of (by account_contract shmma_contract_partial) (shmma_stream_eq_batch_partial o p hc hp hb)

theorem emsd_accounts_partial {R : Type} [Field R] [LinearOrder R] [IsStrictOrderedRing R] [CMath R] [LawfulPow R] (o : Nat → R) (p m : Nat) (hc : toInt (o 0) = .ok (p : Int)) (h1 : toInt (o 1) = .ok (m : Int)) (hp : 1 ≤ p) (hm : 1 ≤ m) (hb : m < 2147483647) :
    (emsd (R := R)).Accounts o (p - 1) :=
  accounts_of (by account_contract emsd_contract_partial) (emsd_stream_eq_batch_partial o p m hc h1 hp hm hb)

theorem edcf_accounts_partial {R : Type} [Field R] [LinearOrder R] [IsStrictOrderedRing R] [CMath R] [LawfulCeil R] [LawfulTrunc R] [LawfulRound R] (o : Nat → R) (p : Nat) (ho : o 0 = ((p : Int) : R)) (hp : 1 ≤ p) (hb : p ≤ 1073741823) :
    (edcf (R := R)).Accounts o (2 * p - 1) :=
  accounts_of (by account_contract edcf_contract_partial) (edcf_stream_eq_batch_partial o p ho hp hb)

theorem pc_accounts_partial {R : Type} [Field R] [LinearOrder R] [IsStrictOrderedRing R] [CMath R] [LawfulTrunc R] [LawfulRound R] (o : Nat → R) (p : Nat) (hc : toInt (o 0) = .ok (p : Int)) (hp : 2 ≤ p) :
    (pc (R := R)).Accounts o (p - 1) :=
  accounts_of (by account_contract pc_contract_partial) (pc_stream_eq_batch_partial o p hc hp)

theorem ce_accounts_partial {R : Type} [Field R] [LinearOrder R] [IsStrictOrderedRing R] [CMath R] [LawfulTrunc R] [LawfulRound R] (o : Nat → R) (p : Nat) (hc : toInt (o 0) = .ok (p : Int)) (hp : 2 ≤ p) :
    (ce (R := R)).Accounts o (p - 1) :=
  accounts_of (by account_contract ce_contract_partial) (ce_stream_eq_batch_partial o p hc hp)

theorem ichi_accounts_partial {R : Type} [Field R] [LinearOrder R] [IsStrictOrderedRing R] [CMath R] [LawfulTrunc R] [LawfulRound R] (o : Nat → R) (p9 p26 p52 : Nat) (h0 : toInt (o 0) = .ok (p9 : Int)) (h1 : toInt (o 1) = .ok (p26 : Int)) (h2 : toInt (o 2) = .ok (p52 : Int)) (h9 : 1 ≤ p9) (h26 : p9 ≤ p26) (h52 : p26 ≤ p52) (hb : p52 - 1 + p26 ≤ 2147483647) (hb' : p26 + 1 ≤ 2147483647) :
    (ichi (R := R)).Accounts o (p52 - 1 + p26) :=
  accounts_of (by account_contract ichi_contract_partial) (ichi_stream_eq_batch_partial o p9 p26 p52 h0 h1 h2 h9 h26 h52 hb hb')

theorem smi_accounts_partial {R : Type} [Field R] [LinearOrder R] [IsStrictOrderedRing R] [CMath R] [LawfulTrunc R] [LawfulRound R] [LawfulCeil R] (o : Nat → R) (q r s : Nat) (h0 : o 0 = (q : R)) (h1 : o 1 = (r : R)) (h2 : o 2 = (s : R)) (hq : 2 ≤ q) (hr : 1 ≤ r) (hs : 1 ≤ s) (b0 : q ≤ 2147483647) (b1 : r ≤ 2147483647) (b2 : s ≤ 2147483647) :
    (smi (R := R)).Accounts o (q - 1) :=
  accounts_of (by account_contract smi_contract_partial) (smi_stream_eq_batch_partial o q r s h0 h1 h2 hq hr hs b0 b1 b2)

theorem hd_accounts {R : Type} [Num R] (o : Nat → R) :
    (hd (R := R)).Accounts o 5 :=
  accounts_of (by account_contract hd_contract) (hd_stream_eq_batch o)

theorem arsi_accounts_partial {R : Type} [Field R] [LinearOrder R] [IsStrictOrderedRing R] [CMath R] [LawfulTrunc R] [LawfulRound R] (o : Nat → R) (h0 : 3 ≤ o 0 * 50) (h1 : o 0 * 50 + 1 < 2147483648) :
    (arsi (R := R)).Accounts o 5 :=
  accounts_of (by account_contract arsi_contract_partial) (arsi_stream_eq_batch_partial o h0 h1)

theorem mama_accounts {R : Type} [Num R] (o : Nat → R) (h : mamaBad o = false) :
    (mama (R := R)).Accounts o 6 :=
  accounts_of (by account_contract mama_contract) (mama_stream_eq_batch o h)

theorem gf1_accounts_partial {R : Type} [Field R] [LinearOrder R] [IsStrictOrderedRing R] [CMath R] (o : Nat → R) (q : Nat) (h1 : 1 ≤ q) (h2 : q ≤ 20) (hc : toInt (o 0) = .ok ((2 * q : Nat) : Int)) :
    (gf1 (R := R)).Accounts o 0 :=
  accounts_of (by account_contract gf1_contract) (gf1_stream_eq_batch_partial o q h1 h2 hc)

theorem gf2_accounts {R : Type} [Num R] (o : Nat → R) (q : Nat) (h1 : 1 ≤ q) (h2 : q ≤ 20) (hc : toInt (o 0) = .ok ((2 * q : Nat) : Int)) :
    (gf2 (R := R)).Accounts o 0 :=
  accounts_of (by account_contract gf2_contract) (gf2_stream_eq_batch o q h1 h2 hc)

theorem gf3_accounts {R : Type} [Num R] (o : Nat → R) (q : Nat) (h1 : 1 ≤ q) (h2 : q ≤ 20) (hc : toInt (o 0) = .ok ((2 * q : Nat) : Int)) :
    (gf3 (R := R)).Accounts o 0 :=
  accounts_of (by account_contract gf3_contract) (gf3_stream_eq_batch o q h1 h2 hc)

theorem bf2_accounts {R : Type} [Num R] (o : Nat → R) (h : ¬ o 0 < c! 1) (q : Nat) (h1 : 1 ≤ q) (h2 : q ≤ 20) (hc : toInt (o 0) = .ok ((2 * q : Nat) : Int)) (s : Nat) (hs : bf2Start o = .ok (s : Int)) :
    (bf2 (R := R)).Accounts o s :=
  accounts_of (by account_contract bf2_contract) (bf2_stream_eq_batch o h q h1 h2 hc s hs)

theorem bf3_accounts {R : Type} [Num R] (o : Nat → R) (h : ¬ o 0 < c! 1) (q : Nat) (h1 : 1 ≤ q) (h2 : q ≤ 20) (hc : toInt (o 0) = .ok ((2 * q : Nat) : Int)) (s : Nat) (hs : bf3Start o = .ok (s : Int)) :
    (bf3 (R := R)).Accounts o s :=
  accounts_of (by account_contract bf3_contract) (bf3_stream_eq_batch o h q h1 h2 hc s hs)

theorem ssmooth_accounts {R : Type} [Num R] (o : Nat → R) :
    (ssmooth (R := R)).Accounts o 0 :=
  accounts_of (by account_contract ssmooth_contract) (ssmooth_stream_eq_batch o)

theorem roof_accounts {R : Type} [Num R] (o : Nat → R) :
    (roof (R := R)).Accounts o 0 :=
  accounts_of (by account_contract roof_contract) (roof_stream_eq_batch o)

theorem lf_accounts {R : Type} [Num R] (o : Nat → R) (h : ¬ o 0 < c! 0) :
    (lf (R := R)).Accounts o 0 :=
  accounts_of (by account_contract lf_contract) (lf_stream_eq_batch o h)

theorem rema_accounts {R : Type} [Num R] (o : Nat → R) (h1 : ¬ o 0 < c! 1) (h2 : ¬ o 1 < c! 0) :
    (rema (R := R)).Accounts o 0 :=
  accounts_of (by account_contract rema_contract) (rema_stream_eq_batch o h1 h2)

theorem fi_accounts {R : Type} [Field R] [LinearOrder R] [IsStrictOrderedRing R] [CMath R] (o : Nat → R) (h : 1 ≤ o 0) :
    (fi (R := R)).Accounts o 1 :=
  accounts_of (by account_contract fi_contract) (fi_stream_eq_batch o h)

theorem mgdyn_accounts {R : Type} [Num R] (o : Nat → R) :
    (mgdyn (R := R)).Accounts o 0 :=
  accounts_of (by account_contract mgdyn_contract) (mgdyn_stream_eq_batch o)

theorem kc_accounts {R : Type} [Num R] (o : Nat → R) (h0 : ¬ o 0 < c! 1) (h0' : ¬ o 0 < c! 0) (h1 : ¬ o 1 < c! 0) :
    (kc (R := R)).Accounts o 0 :=
  accounts_of (by account_contract kc_contract) (kc_stream_eq_batch o h0 h0' h1)

theorem tsi_accounts {R : Type} [Num R] (o : Nat → R) (h0 : ¬ o 0 < c! 1) (h1 : ¬ o 1 < c! 1) :
    (tsi (R := R)).Accounts o 1 :=
  accounts_of (by account_contract tsi_contract) (tsi_stream_eq_batch o h0 h1)

theorem rmi_accounts_partial {R : Type} [Field R] [LinearOrder R] [IsStrictOrderedRing R] [CMath R] [LawfulTrunc R] [LawfulRound R] (o : Nat → R) (p : Nat) (h0 : 1 ≤ o 0) (ho : o 1 = (p : R)) (hp : 1 ≤ p) (hb : p < 2147483647) :
    (rmi (R := R)).Accounts o p :=
  accounts_of (by account_contract rmi_contract_partial) (rmi_stream_eq_batch_partial o p h0 ho hp hb)

theorem vwap_accounts_partial {R : Type} [Field R] [LinearOrder R] [IsStrictOrderedRing R] [CMath R] [LawfulTrunc R] [LawfulRound R] (o : Nat → R) (p : Nat) (hc : toInt (o 0) = .ok (p : Int)) (hp : 1 ≤ p) (hb : p < 2147483647) :
    (vwap (R := R)).Accounts o (p - 1) :=
  accounts_of (by account_contract vwap_contract) (vwap_stream_eq_batch_partial o p hc hp hb)

theorem evwma_accounts_partial {R : Type} [Num R] (o : Nat → R) (p : Nat) (hc : toInt (o 0) = .ok (p : Int)) (hp : 1 ≤ p) (hb : p < 2147483647) (hg : ¬ o 1 ≤ c! 0) :
    (evwma (R := R)).Accounts o (p - 1) :=
  accounts_of (by account_contract evwma_contract) (evwma_stream_eq_batch_partial o p hc hp hb hg)

theorem hurst_accounts_partial {R : Type} [Field R] [LinearOrder R] [IsStrictOrderedRing R] [CMath R] [LawfulTrunc R] [LawfulRound R] [LawfulCeil R] [LawfulPow R] (o : Nat → R) (p : Nat) (ho : o 0 = ((p : Int) : R)) (hp : 2 ≤ p) (hb : p ≤ 2147483647) :
    (hurst (R := R)).Accounts o p :=
  accounts_of (by account_contract hurst_contract_partial) (hurst_stream_eq_batch_partial o p ho hp hb)

theorem mesastoch_accounts_partial {R : Type} [Field R] [LinearOrder R] [IsStrictOrderedRing R] [CMath R] [LawfulTrunc R] [LawfulRound R] [LawfulCeil R] [LawfulPow R] (o : Nat → R) (p m : Nat) (hcp : toInt (o 0) = .ok (p : Int)) (hcm : toInt (o 1) = .ok (m : Int)) (hp : 3 ≤ p) (hb : p ≤ 2147483645) (hm : 1 ≤ m) :
    (mesastoch (R := R)).Accounts o (p + 2) :=
  accounts_of (by account_contract mesastoch_contract_partial) (mesastoch_stream_eq_batch_partial o p m hcp hcm hp hb hm)

theorem frama_accounts_partial {R : Type} [Field R] [LinearOrder R] [IsStrictOrderedRing R] [CMath R] [LawfulTrunc R] [LawfulRound R] [LawfulCeil R] [LawfulPow R] (o : Nat → R) (h : Nat) (ho : o 0 = (((2 * h : Nat) : Int) : R)) (hh : 1 ≤ h) (hb : 2 * h ≤ 2147483647) (h2 : ¬ o 1 < c! 2) :
    (frama (R := R)).Accounts o 0 :=
  accounts_of (by account_contract frama_contract_partial) (frama_stream_eq_batch_partial o h ho hh hb h2)

theorem hf_accounts_partial {R : Type} [Field R] [LinearOrder R] [IsStrictOrderedRing R] [CMath R] (o : Nat → R) (k : Nat) (hc : toInt (o 0) = .ok (k : Int)) (hk : 1 ≤ k) (hb : 2 * k + 1 ≤ 2147483647) (ht : 0 ≤ o 1) :
    (hf (R := R)).Accounts o (2 * k) :=
  accounts_of (by account_contract hf_contract_partial) (hf_stream_eq_batch_partial o k hc hk hb ht)

theorem hfema_accounts_partial {R : Type} [Field R] [LinearOrder R] [IsStrictOrderedRing R] [CMath R] (o : Nat → R) (p k : Nat) (h0 : toInt (o 0) = .ok (p : Int)) (h1 : toInt (o 1) = .ok (k : Int)) (hp : 1 ≤ p) (hk : 1 ≤ k) (hb : 2 * k + 1 ≤ 2147483647) (ht : 0 ≤ o 2) :
    (hfema (R := R)).Accounts o (2 * k) :=
  accounts_of (by account_contract hfema_contract_partial) (hfema_stream_eq_batch_partial o p k h0 h1 hp hk hb ht)

theorem hfsma_accounts_partial {R : Type} [Field R] [LinearOrder R] [IsStrictOrderedRing R] [CMath R] (o : Nat → R) (p k : Nat) (h0 : toInt (o 0) = .ok (p : Int)) (h1 : toInt (o 1) = .ok (k : Int)) (hp : 1 ≤ p) (hk : 1 ≤ k) (hb : 2 * k + 1 ≤ 2147483647) (hpk : p ≤ 2 * k + 1) (hb2 : p - 1 + 2 * k ≤ 2147483647) (ht : 0 ≤ o 2) :
    (hfsma (R := R)).Accounts o (p - 1 + 2 * k) :=
  accounts_of (by account_contract hfsma_contract_partial) (hfsma_stream_eq_batch_partial o p k h0 h1 hp hk hb hpk hb2 ht)

theorem atr_accounts {R : Type} [Field R] [LinearOrder R] [IsStrictOrderedRing R] [CMath R] (o : Nat → R) (p : Nat) (hc : toInt (o 0) = .ok (p : Int)) (hp : 1 ≤ p) :
    (atr (R := R)).Accounts o (p - 1) :=
  accounts_of (by account_contract atr_contract) (atr_stream_eq_batch o p hc hp)

theorem hwma_accounts_partial {R : Type} [Field R] [LinearOrder R] [IsStrictOrderedRing R] [CMath R] (o : Nat → R) (p : Nat) (hc : toInt (o 0) = .ok (p : Int)) (h7 : 7 ≤ p) (h13 : p ≤ 13) :
    (hwma (R := R)).Accounts o (p - 1) :=
  accounts_of (by account_contract hwma_contract) (hwma_stream_eq_batch_partial o p hc h7 h13)

theorem rmf_accounts {R : Type} [Field R] [LinearOrder R] [IsStrictOrderedRing R] [CMath R] [LawfulTrunc R] [LawfulRound R] (o : Nat → R) (k : Nat) (hc : toInt (o 1) = .ok ((2 * k + 1 : Nat) : Int)) (h0 : 1 ≤ o 0) :
    (rmf (R := R)).Accounts o (2 * k) :=
  accounts_of (by account_contract rmf_contract) (rmf_stream_eq_batch o k hc h0)

theorem rvi_accounts_partial {R : Type} [Num R] [IntExact R] (o : Nat → R) (p e : Nat) (ho : o 1 = ((p : Int) : R)) (hce : toInt (o 0) = .ok (e : Int)) (he : 1 ≤ e) (hp : 1 ≤ p) (hb : e < 2147483647) (hpp : p * (p + 1) * (2 * p + 1) ≤ 2147483647) :
    (rvi (R := R)).Accounts o (p - 1) :=
  have hlt := regP_lt hpp
  accounts_of (rvi_contract_partial o p e hce (by rw [ho]; exact toInt_cast _ (by omega)) he hp hb hpp) (rvi_stream_eq_batch_partial o p e ho hce he hp hb hpp)

theorem pbands_accounts_partial {R : Type} [Num R] [IntExact R] (o : Nat → R) (p : Nat) (ho : o 0 = ((p : Int) : R)) (hp : 1 ≤ p) (hbd : bound (o 0) = .ok (p : Int)) (hpp : p * (p + 1) * (2 * p + 1) ≤ 2147483647) :
    (pbands (R := R)).Accounts o (p - 1) :=
  have hlt := regP_lt hpp
  accounts_of (pbands_contract_partial o p (by rw [ho]; exact toInt_cast _ (by omega)) hp hpp) (pbands_stream_eq_batch_partial o p ho hp hbd hpp)

theorem posc_accounts_partial {R : Type} [Num R] [IntExact R] (o : Nat → R) (p e : Nat) (ho : o 0 = ((p : Int) : R)) (ho1 : o 1 = ((e : Int) : R)) (hp : 1 ≤ p) (he : 1 ≤ e) (hbd : bound (o 0) = .ok (p : Int)) (hb : e < 2147483647) (hpp : p * (p + 1) * (2 * p + 1) ≤ 2147483647) :
    (posc (R := R)).Accounts o (p - 1) :=
  have hlt := regP_lt hpp
  accounts_of (posc_contract_partial o p e (by rw [ho]; exact toInt_cast _ (by omega)) (by rw [ho1]; exact toInt_cast _ (by omega)) hp he hb hpp) (posc_stream_eq_batch_partial o p e ho ho1 hp he hbd hb hpp)

theorem er_accounts_partial {R : Type} [Num R] (o : Nat → R) (p : Nat) (hc : toInt (o 0) = .ok (p : Int)) (hp : 1 ≤ p) (hb : p < 2147483647) :
    (er (R := R)).Accounts o p :=
  accounts_of (by account_contract er_contract) (er_stream_eq_batch_partial o p hc hp hb)

theorem dwma_accounts_partial {R : Type} [Num R] [IntExact R] (o : Nat → R) (p : Nat) (ho : o 0 = ((p : Int) : R)) (hp : 1 ≤ p) (hb : p ≤ 1073741824) :
    (dwma (R := R)).Accounts o (2 * (p - 1)) :=
  accounts_of (by account_contract dwma_contract_partial) (dwma_stream_eq_batch_partial o p ho hp hb)

theorem pwma_accounts_partial {R : Type} [Field R] [LinearOrder R] [IsStrictOrderedRing R] [CMath R] [LawfulTrunc R] [LawfulRound R] (o : Nat → R) (p : Nat) (hc : toInt (o 0) = .ok (p : Int)) (hp : 1 ≤ p) (hb : p < 2147483647) :
    (pwma (R := R)).Accounts o (p - 1) :=
  accounts_of (by account_contract pwma_contract) (pwma_stream_eq_batch_partial o p hc hp hb)

theorem swma_accounts {R : Type} [Num R] (o : Nat → R) (p : Nat) (hc : toInt (o 0) = .ok (p : Int)) (hp : 1 ≤ p) (hb : p < 2147483647) (h1 : p % 6 ≠ 0) (h2 : p % 6 ≠ 5) :
    (swma (R := R)).Accounts o (p - 1) :=
  accounts_of (by account_contract swma_contract) (swma_stream_eq_batch o p hc hp hb h1 h2)

theorem t3_accounts {R : Type} [Num R] (o : Nat → R) (h0 : ¬ o 0 < c! 1) (h1 : ¬ o 1 < c! 0) :
    (t3 (R := R)).Accounts o 0 :=
  accounts_of (by account_contract t3_contract) (t3_stream_eq_batch o h0 h1)

theorem copp_accounts_partial {R : Type} [Field R] [LinearOrder R] [IsStrictOrderedRing R] [CMath R] [LawfulTrunc R] [LawfulRound R] (o : Nat → R) (s l w : Nat) (h0 : o 0 = ((s : Int) : R)) (h1 : o 1 = ((l : Int) : R)) (h2 : o 2 = ((w : Int) : R)) (hs : 1 ≤ s) (hl : s ≤ l) (hw : 1 ≤ w) (hb : l + w ≤ 2147483646) (hb2 : w * (w + 1) ≤ 2147483647) :
    (copp (R := R)).Accounts o (l + (w - 1)) :=
  accounts_of (by account_contract copp_contract_partial) (copp_stream_eq_batch_partial o s l w h0 h1 h2 hs hl hw hb hb2)

theorem sma_accounts {R : Type} [Field R] [LinearOrder R] [IsStrictOrderedRing R] [CMath R] (o : Nat → R) (p : Nat) (hc : toInt (o 0) = .ok (p : Int)) (hp : 1 ≤ p) :
    (sma (R := R)).Accounts o (p - 1) :=
  accounts_of (by account_contract sma_contract) (sma_stream_eq_batch o p hc hp)

theorem pfe_accounts_partial {R : Type} [Field R] [LinearOrder R] [IsStrictOrderedRing R] [CMath R] [LawfulTrunc R] [LawfulRound R] (o : Nat → R) (p e : Nat) (hcp : toInt (o 0) = .ok (p : Int)) (ho : o 1 = ((e : Int) : R)) (hp : 1 ≤ p) (he : 1 ≤ e) (hbe : e ≤ 2147483647) (hb : p < 2147483647) :
    (pfe (R := R)).Accounts o p :=
  accounts_of (by account_contract pfe_contract) (pfe_stream_eq_batch_partial o p e hcp ho hp he hbe hb)

theorem cmi_accounts_partial {R : Type} [Field R] [LinearOrder R] [IsStrictOrderedRing R] [CMath R] [LawfulTrunc R] [LawfulRound R] (o : Nat → R) (p : Nat) (ho : o 0 = ((p : Int) : R)) (hb : p ≤ 2147483647) (hp : 2 ≤ p) :
    (cmi (R := R)).Accounts o (p - 1) :=
  accounts_of (by account_contract cmi_contract_partial) (cmi_stream_eq_batch_partial o p ho hb hp)

theorem mhlma_accounts_partial {R : Type} [Field R] [LinearOrder R] [IsStrictOrderedRing R] [CMath R] [LawfulTrunc R] [LawfulRound R] (o : Nat → R) (p ma : Nat) (hcp : toInt (o 0) = .ok (p : Int)) (hcm : toInt (o 1) = .ok (ma : Int)) (hp : 1 ≤ p) (hma : 2 ≤ ma) (hb : ma < 2147483647) :
    (mhlma (R := R)).Accounts o (ma - 1) :=
  accounts_of (by account_contract mhlma_contract_partial) (mhlma_stream_eq_batch_partial o p ma hcp hcm hp hma hb)

/-! Three streams that do not always agree with their batch call account for their bars nevertheless. -/

theorem accounts_of_stream {R ρ ω : Type} [Inhabited ρ] {I : Indicator R ρ ω} {o : Nat → R} {start : Nat} {val : (Nat → ρ) → Nat → ω}
    (hs : I.start o = .ok (start : Int)) (h : I.StreamComputes o start val) : I.Accounts o start := by
  refine ⟨hs, fun chunks => ?_⟩
  obtain ⟨x, hx⟩ := exists_pre chunks.flatten
  exact ⟨_, h x _ chunks hx, by simp⟩

theorem pvt_accounts {R : Type} [Num R] (o : Nat → R) : (pvt (R := R)).Accounts o 1 :=
  have : Inhabited (CV R) := ⟨⟨c! 0, c! 0⟩⟩
  accounts_of_stream rfl (pvt_stream_run o)

theorem gf4_accounts {R : Type} [Num R] (o : Nat → R) (q : Nat) (h1 : 1 ≤ q) (h2 : q ≤ 20) (hc : toInt (o 0) = .ok ((2 * q : Nat) : Int)) :
    (gf4 (R := R)).Accounts o 0 :=
  have : Inhabited R := ⟨c! 0⟩
  accounts_of_stream (by simp [gf4, gf4Start, hc]) (gf4_stream_run o q h1 h2 hc)

theorem vi_accounts {R : Type} [Field R] [LinearOrder R] [IsStrictOrderedRing R] [CMath R] [LawfulAbs R] [LawfulTrunc R] [LawfulRound R]
    (o : Nat → R) (p : Nat) (hc : toInt (o 0) = .ok (p : Int)) (hp : 1 ≤ p) : (vi (R := R)).Accounts o p :=
  have : Inhabited (HLC R) := ⟨⟨0, 0, 0⟩⟩
  accounts_of_stream hc (vi_stream_value o p hc hp)

/-! ### Concrete cases -/

example : (sma (R := ℚ)).Accounts (opts [3]) 2 := sma_accounts _ 3 (by decide +kernel) (by omega)
example : (sma (R := ℚ)).session (opts [3]) [[1], [], [2, 3, 4]] = .ok (.okay, 2, [2, 3]) := by decide +kernel
example : (sma (R := ℚ)).session (opts [3]) [[1]] = .ok (.okay, -1, []) := by decide +kernel

end Verif
