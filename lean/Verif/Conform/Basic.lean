/-
Replaying the project's own tests (`/repo/tests`) on the model: shared helpers.  The modules in this directory are not proofs of
properties; they evaluate the definitions of the model on the inputs of the project's tests and check the values those tests
expect.  A disagreement would show that the model is not the code.
-/
import Verif.Prelude
import Mathlib.Data.Rat.Floor
import Mathlib.Algebra.Order.Ring.Rat

namespace FinML.Conform

/-- `x` rounded down to a multiple of `10⁻¹⁸`. -/
def trunc18 (x : ℚ) : ℚ := (Rat.floor (x * 10 ^ 18) : ℚ) / 10 ^ 18

/-- `z + z³/3 + z⁵/5 + …` (`n` more terms); `p` is the current power of `z`, `k` its exponent. -/
def atanhSeries (z2 : ℚ) : Nat → ℚ → Nat → ℚ
  | 0, _, _ => 0
  | n + 1, p, k => p / (k : ℚ) + atanhSeries z2 n (trunc18 (p * z2)) (k + 2)

/-- `ln 2` to 20 digits. -/
def ln2 : ℚ := 69314718055994530942 / 10 ^ 20

/-- `x = m · 2^k` with `2/3 ≤ m ≤ 4/3`. -/
def reduce2 : Nat → ℚ → Int → ℚ × Int
  | 0, x, k => (x, k)
  | n + 1, x, k => if 4 / 3 < x then reduce2 n (x / 2) (k + 1) else if x < 2 / 3 then reduce2 n (x * 2) (k - 1) else (x, k)

/-- Natural logarithm of a positive rational with an error of about `10⁻¹⁶`. -/
def qlog (x : ℚ) : ℚ :=
  let r := reduce2 80 x 0
  let z := trunc18 ((r.1 - 1) / (r.1 + 1))
  trunc18 (2 * atanhSeries (z * z) 25 z 1) + (r.2 : ℚ) * ln2

/-- Newton's method for the square root. -/
def sqrtIter (x : ℚ) : Nat → ℚ → ℚ
  | 0, y => y
  | n + 1, y => sqrtIter x n (trunc18 ((y + x / y) / 2))

/-- Square root of a non-negative rational with an error of about `10⁻¹⁷`. -/
def qsqrt (x : ℚ) : ℚ := if x ≤ 0 then 0 else sqrtIter x 40 (if 1 ≤ x then x else 1)

/-- Terms of the exponential series. -/
def expSeries (x : ℚ) : Nat → ℚ → Nat → ℚ
  | 0, _, _ => 0
  | n + 1, p, k => p + expSeries x n (trunc18 (p * x / (k : ℚ))) (k + 1)

/-- Exponential of a rational of size at most about 20. -/
def qexp (x : ℚ) : ℚ := trunc18 ((trunc18 (expSeries (x / 16) 20 1 1)) ^ 16)

/-- `np.testing.assert_allclose`-like comparison with an absolute tolerance. -/
def near (tol : ℚ) (a b : ℚ) : Bool := decide (|a - b| ≤ tol)

def nearList (tol : ℚ) : List ℚ → List ℚ → Bool
  | [], [] => true
  | a :: l, b :: m => near tol a b && nearList tol l m
  | _, _ => false

/-- The same with NaN (`none`) equal to NaN. -/
def nearOpt (tol : ℚ) : Option ℚ → Option ℚ → Bool
  | none, none => true
  | some a, some b => near tol a b
  | _, _ => false

def nearOptList (tol : ℚ) : List (Option ℚ) → List (Option ℚ) → Bool
  | [], [] => true
  | a :: l, b :: m => nearOpt tol a b && nearOptList tol l m
  | _, _ => false

/-- A successful run whose result passes a check. -/
def okAnd {α : Type} (e : Except String α) (p : α → Bool) : Bool :=
  match e with
  | .ok x => p x
  | .error _ => false

/-- A run that raises. -/
def fails {α : Type} (e : Except String α) : Bool :=
  match e with
  | .ok _ => false
  | .error _ => true

/-- A run that raises with the given message. -/
def failsWith {α : Type} (e : Except String α) (m : String) : Bool :=
  match e with
  | .ok _ => false
  | .error x => x == m

/-- `np.linspace(a, b, n)`. -/
def linspace (a b : ℚ) (n : Nat) : List ℚ := (List.range n).map (fun i : Nat => a + (b - a) * (i : ℚ) / ((n : ℚ) - 1))

/-- `np.arange(n) * 10⁹`. -/
def seconds (n : Nat) : List Int := (List.range n).map (fun i : Nat => (i : Int) * 1000000000)

example : near (1 / 10 ^ 15) (qlog 2) ln2 = true ∧ near (1 / 10 ^ 15) (qlog 10) (2302585092994045684 / 10 ^ 18) = true ∧
    near (1 / 10 ^ 15) (qlog (1 / 1000)) (-6907755278982137052 / 10 ^ 18) = true ∧
    near (1 / 10 ^ 15) (qsqrt 2) (1414213562373095048 / 10 ^ 18) = true ∧ near (1 / 10 ^ 14) (qexp 1) (2718281828459045235 / 10 ^ 18) = true ∧
    near (1 / 10 ^ 14) (qexp (-3 / 2)) (223130160148429828 / 10 ^ 18) = true := by decide +kernel

end FinML.Conform
