/-
Specification vocabulary for footprints.
-/
import Verif.Prelude

namespace FinML

variable {K : Type} [Field K] [LinearOrder K]

/-- The trades (price, amount, side) of side `s` whose price rounds to tick level `p`. -/
def atLevel (rnd : K → Int) (s p : Int) (ts : List (K × K × Int)) : List (K × K × Int) :=
  ts.filter (fun t => decide (t.2.2 = s ∧ rnd t.1 = p))

/-- Positions `i, …, i + len - 1` of `l` are a non-empty run of the non-zero sign `s`. -/
structure SignRun (l : List Int) (i len : Nat) (s : Int) : Prop where
  sign : s ≠ 0
  pos : 0 < len
  inside : i + len ≤ l.length
  const : ∀ k, i ≤ k → k < i + len → l[k]? = some s

end FinML
