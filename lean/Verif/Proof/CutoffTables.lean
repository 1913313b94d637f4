/- The rows of the tables of gf1, gf2, gf3, gf4, bf2 and bf3 pass the check of Proof/Cutoff: one computation per row. -/
import Verif.Proof.Cutoff
import Verif.Model.Filters

namespace Verif
open Cutoff

theorem gf1_row : ∀ i : Fin 20, row i.val 4999 10000 5001 10000 1000000 (gf1A1.getD i.val 0) 0 0 0 (gf1B0.getD i.val 0) 0 0 0 8 = true := by
  decide +kernel
theorem gf2_row : ∀ i : Fin 20, row i.val 4999 10000 5001 10000 (gf2B0.getD i.val 0 + gf2A1.getD i.val 0 + gf2A2.getD i.val 0)
    (gf2A1.getD i.val 0) (gf2A2.getD i.val 0) 0 0 (gf2B0.getD i.val 0) 0 0 0 20 = true := by decide +kernel
theorem gf3_row : ∀ i : Fin 20, row i.val 0 1 452 1000 4 1 1 1 0 1 0 0 0 6 = true := by decide +kernel
theorem gf4_row : ∀ i : Fin 20, i.val < 15 → row i.val (if i.val < 3 then 499 else 0) 1000 (if i.val < 3 then 501 else 491) 1000
    (gf4B0.getD i.val 0 + gf4A1.getD i.val 0 + gf4A2.getD i.val 0 + gf4A3.getD i.val 0 + gf4A4.getD i.val 0)
    (gf4A1.getD i.val 0) (gf4A2.getD i.val 0) (gf4A3.getD i.val 0) (gf4A4.getD i.val 0) (gf4B0.getD i.val 0) 0 0 0 225 = true := by decide +kernel
theorem bf2_row : ∀ i : Fin 20, row i.val (if i.val < 5 then 0 else 450) 1000 (if i.val < 5 then 437 else 500) 1000 1000000
    (bf2A1.getD i.val 0) (bf2A2.getD i.val 0) 0 0 (bf2B0.getD i.val 0) (bf2B1.getD i.val 0) (bf2B2.getD i.val 0) 0 30 = true := by decide +kernel
theorem bf3_row : ∀ i : Fin 20, row i.val (if i.val < 6 then 0 else 450) 1000 (if i.val < 6 then 435 else 500) 1000 1000000
    (bf3A1.getD i.val 0) (bf3A2.getD i.val 0) (bf3A3.getD i.val 0) 0
    (bf3B0.getD i.val 0) (bf3B1.getD i.val 0) (bf3B2.getD i.val 0) (bf3B3.getD i.val 0) 80 = true := by decide +kernel

end Verif
