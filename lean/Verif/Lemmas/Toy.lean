/-
The toy suite used in the non-vacuity examples: squares modulo 23 (order 11, base 4).
-/
import Verif.Model.Util
import Verif.Lemmas.Suite
import Mathlib.Tactic.NormNum.Prime

namespace ZRep

instance : Fact (Nat.Prime 23) := ⟨by norm_num⟩
instance : Fact (Nat.Prime 11) := ⟨by norm_num⟩

/-- squares modulo 23; the "hash" adds up all bytes -/
def toySuite : Suite 23 11 where
  base := 4
  pick := fun k m => ((k ++ m).map (fun b => b.toNat)).sum
  exampleNonce := 7

theorem toySuite_wf : toySuite.WF := ⟨by decide +kernel, by decide⟩

end ZRep
