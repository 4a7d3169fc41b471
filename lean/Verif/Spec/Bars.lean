/-
Specification vocabulary for bars: which trades a bar contains.
-/
import Verif.Prelude

namespace FinML

/-- The elements of `xs` (prices, volumes, …) of the trades after close index `a` up to and including close
index `b`. -/
def sliceAfter {α : Type} (xs : List α) (a b : Int) : List α :=
  (xs.drop (a + 1).toNat).take (b - a).toNat

/-- A well-formed sequence of close indices for `n` trades: at least two, non-decreasing, starting at `-1` or
later, ending before `n`. -/
structure ValidCloses (c : List Int) (n : Nat) : Prop where
  two : 2 ≤ c.length
  mono : c.Pairwise (· ≤ ·)
  lower : ∀ x ∈ c, -1 ≤ x
  upper : ∀ x ∈ c, x < n

end FinML
