import Verif.NN.Float
/-!
# What is assumed of `double`

`FV` is the value of a `double`: NaN, an infinity or a real number (both zeros have the value 0). `Ieee` lists the facts about IEEE 754 binary64 arithmetic (round to nearest), the C library and
Armadillo's sums that the theorems about special values use. It is a hypothesis of those theorems, not an axiom; `NN/FloatWitness.lean` shows that it can be met.
-/
namespace Nnet.NN.Flt

/-- The value of a `double`. -/
inductive FV where
  | nan
  | pinf
  | ninf
  | fin (r : ℝ)

namespace FV
noncomputable section

/-- `a <= b` as numbers, false for NaN. -/
def Le : FV → FV → Prop
  | nan, _ | _, nan => False
  | ninf, _ | _, pinf => True
  | pinf, _ | _, ninf => False
  | fin a, fin b => a ≤ b

/-- `a < b` as numbers, false for NaN. -/
def Lt : FV → FV → Prop
  | nan, _ | _, nan => False
  | pinf, _ | _, ninf => False
  | ninf, _ | _, pinf => True
  | fin a, fin b => a < b

/-- `-a`. -/
def neg : FV → FV
  | nan => nan
  | pinf => ninf
  | ninf => pinf
  | fin a => fin (-a)

/-- `a + b`: infinities of opposite sign give NaN, otherwise the exact sum is rounded. -/
def add (rnd : ℝ → FV) : FV → FV → FV
  | nan, _ | _, nan => nan
  | pinf, ninf | ninf, pinf => nan
  | pinf, _ | _, pinf => pinf
  | ninf, _ | _, ninf => ninf
  | fin a, fin b => rnd (a + b)

/-- The infinity with the sign of `a`, NaN for 0. -/
def infSign (a : ℝ) : FV := if 0 < a then pinf else if a < 0 then ninf else nan

/-- `a * b`: zero times infinity is NaN, otherwise the exact product is rounded. -/
def mul (rnd : ℝ → FV) : FV → FV → FV
  | nan, _ | _, nan => nan
  | pinf, pinf | ninf, ninf => pinf
  | pinf, ninf | ninf, pinf => ninf
  | pinf, fin a | fin a, pinf => infSign a
  | ninf, fin a | fin a, ninf => infSign (-a)
  | fin a, fin b => rnd (a * b)

/-- `v` is a possible value of `a / b`: 0/0 and inf/inf are NaN, a non-zero number over a zero is an infinity whose sign depends on the sign of the zero, a number over an infinity is 0. -/
def IsDiv (rnd : ℝ → FV) : FV → FV → FV → Prop
  | nan, _, v | _, nan, v => v = nan
  | pinf, pinf, v | pinf, ninf, v | ninf, pinf, v | ninf, ninf, v => v = nan
  | pinf, fin b, v => if b = 0 then v = pinf ∨ v = ninf else v = infSign b
  | ninf, fin b, v => if b = 0 then v = pinf ∨ v = ninf else v = infSign (-b)
  | fin _, pinf, v | fin _, ninf, v => v = fin 0
  | fin a, fin b, v => if b = 0 then (if a = 0 then v = nan else v = pinf ∨ v = ninf) else v = rnd (a / b)

/-- Exact results from here on overflow (the largest `double` is `2 ^ 1024 - 2 ^ 971`). -/
def _root_.Nnet.NN.Flt.overflow : ℝ := 2 ^ 1024
/-- Exact results up to here do not overflow. -/
def _root_.Nnet.NN.Flt.large : ℝ := 2 ^ 1023
/-- Sums of absolute values up to here do not overflow, whatever the order of summation and the rounding errors of fewer than `2 ^ 50` terms. -/
def _root_.Nnet.NN.Flt.sumMax : ℝ := 2 ^ 1000

/-- `v` is a possible value of `exp(a)`. The C library is not assumed to round correctly: for numbers only these bounds are used. -/
def IsExp : FV → FV → Prop
  | nan, v => v = nan
  | pinf, v => v = pinf
  | ninf, v => v = fin 0
  | fin a, v => Le (fin 0) v ∧ (710 ≤ a → v = pinf) ∧ (a ≤ 700 → Le v (fin (large / 8))) ∧ (a ≤ -746 → v = fin 0) ∧ (a ≤ -38 → Le v (fin (1 / 2 ^ 53))) ∧ (-700 ≤ a → Le (fin (8 / large)) v) ∧
      (a ≤ 0 → Le v (fin 1)) ∧ (0 ≤ a → Le (fin 1) v) ∧ (a ≤ 600 → Le v (fin (sumMax / 2 ^ 100)))

/-- `v` is a possible value of `log(a)`. -/
def IsLog : FV → FV → Prop
  | nan, v | ninf, v => v = nan
  | pinf, v => v = pinf
  | fin a, v => (a < 0 → v = nan) ∧ (a = 0 → v = ninf) ∧ (0 < a → ∃ q, v = fin q ∧ |q| ≤ 1000) ∧ (a = 1 → v = fin 0) ∧ (1 ≤ a → Le (fin 0) v) ∧ (0 < a → a ≤ 1 → Le v (fin 0))

/-- `v` is a possible value of `tanh(a)`. -/
def IsTanh : FV → FV → Prop
  | nan, v => v = nan
  | pinf, v => v = fin 1
  | ninf, v => v = fin (-1)
  | fin _, v => ∃ q, v = fin q ∧ -1 ≤ q ∧ q ≤ 1

/-- `v` is a possible value of `atan(a)`. -/
def IsAtan : FV → FV → Prop
  | nan, v => v = nan
  | _, v => ∃ q, v = fin q ∧ -2 ≤ q ∧ q ≤ 2

/-- `v` is a possible value of `sin(a)` or `cos(a)`. -/
def IsTrig : FV → FV → Prop
  | nan, v | pinf, v | ninf, v => v = nan
  | fin _, v => ∃ q, v = fin q ∧ -1 ≤ q ∧ q ≤ 1

/-- `fabs(a)`. -/
def abs : FV → FV
  | nan => nan
  | pinf | ninf => pinf
  | fin a => fin |a|

open Classical in
/-- `fmax(a, b)`: a NaN argument is ignored. -/
def max (a b : FV) : FV := if a = nan then b else if b = nan then a else if Le a b then b else a

open Classical in
/-- `fmin(a, b)`: a NaN argument is ignored. -/
def min (a b : FV) : FV := if a = nan then b else if b = nan then a else if Le a b then a else b

/-- A number, not NaN or an infinity. -/
def IsFin (a : FV) : Prop := ∃ r, a = fin r

end
end FV

open FV Arith

/-- Rounding to nearest: the value a real result is rounded to. -/
structure Rounding (rnd : ℝ → FV) : Prop where
  notNan : ∀ r, rnd r ≠ nan
  mono : ∀ r s, r ≤ s → Le (rnd r) (rnd s)
  /-- Integers up to `2 ^ 53` are numbers of type `double`. -/
  int : ∀ n : ℤ, |n| ≤ 2 ^ 53 → rnd n = fin n
  /-- The next number after 1 is `1 + 2 ^ -52` and ties go to the even 1. -/
  one : ∀ r : ℝ, 1 ≤ r → r ≤ 1 + 1 / 2 ^ 53 → rnd r = fin 1
  /-- No overflow up to `2 ^ 1023`; the relative error is at most 1 (in the subnormal range). -/
  finite : ∀ r : ℝ, |r| ≤ large → ∃ q, rnd r = fin q ∧ |q| ≤ 2 * |r|
  big : ∀ r : ℝ, overflow ≤ r → rnd r = pinf
  small : ∀ r : ℝ, r ≤ -overflow → rnd r = ninf

/-- What is assumed of `double`, `<cmath>` and Armadillo's sums and products. -/
class Ieee (F : Type) extends Arith F where
  /-- The value of a `double`. -/
  val : F → FV
  /-- Rounding of exact results. -/
  rnd : ℝ → FV
  rounding : Rounding rnd
  /-- A number of type `double` is not changed by rounding. -/
  rnd_val : ∀ x q, val x = fin q → rnd q = fin q
  val_zero : val 0 = fin 0
  val_one : val 1 = fin 1
  val_lit : ∀ q : ℚ, val (lit q) = rnd q
  val_neg : ∀ x, val (-x) = (val x).neg
  val_add : ∀ x y, val (x + y) = FV.add rnd (val x) (val y)
  val_sub : ∀ x y, val (x - y) = FV.add rnd (val x) (val y).neg
  val_mul : ∀ x y, val (x * y) = FV.mul rnd (val x) (val y)
  val_div : ∀ x y, IsDiv rnd (val x) (val y) (val (x / y))
  val_exp : ∀ x, IsExp (val x) (val (exp x))
  val_log : ∀ x, IsLog (val x) (val (log x))
  val_tanh : ∀ x, IsTanh (val x) (val (tanh x))
  val_atan : ∀ x, IsAtan (val x) (val (atan x))
  val_sin : ∀ x, IsTrig (val x) (val (sin x))
  val_cos : ∀ x, IsTrig (val x) (val (cos x))
  val_fabs : ∀ x, val (fabs x) = (val x).abs
  val_fmax : ∀ x y, val (fmax x y) = FV.max (val x) (val y)
  val_fmin : ∀ x y, val (fmin x y) = FV.min (val x) (val y)
  lt_iff : ∀ x y, lt x y = true ↔ Lt (val x) (val y)
  le_iff : ∀ x y, le x y = true ↔ Le (val x) (val y)
  /-- An inner product is NaN if a NaN is multiplied by something other than 0. (A BLAS may skip a factor 0.) -/
  dot_nan : ∀ l : List (F × F), (∃ p ∈ l, (val p.1 = nan ∧ val p.2 ≠ fin 0) ∨ (val p.1 ≠ fin 0 ∧ val p.2 = nan)) → val (dot l) = nan
  /-- No overflow in an inner product of fewer than `2 ^ 50` bounded products, in any order of summation. -/
  dot_bound : ∀ (l : List (F × F)) (B : ℝ), (∀ p ∈ l, ∃ a b, val p.1 = fin a ∧ val p.2 = fin b ∧ |a * b| ≤ B) → l.length < 2 ^ 50 → l.length * B ≤ sumMax →
    ∃ r, val (dot l) = fin r ∧ |r| ≤ 4 * l.length * B
  /-- A sum with a NaN is NaN. -/
  total_nan : ∀ l : List F, (∃ x ∈ l, val x = nan) → val (total l) = nan
  /-- A sum of non-negative numbers and positive infinities with an infinity is infinite. -/
  total_pinf : ∀ l : List F, (∀ x ∈ l, Le (fin 0) (val x)) → (∃ x ∈ l, val x = pinf) → val (total l) = pinf
  /-- A sum of zeros is 0. -/
  total_zero : ∀ l : List F, (∀ x ∈ l, val x = fin 0) → val (total l) = fin 0
  /-- A sum of non-negative values is non-negative, and at least each of its terms. -/
  total_nonneg : ∀ l : List F, (∀ x ∈ l, Le (fin 0) (val x)) → Le (fin 0) (val (total l)) ∧ ∀ x ∈ l, Le (val x) (val (total l))
  /-- No overflow in a sum of fewer than `2 ^ 50` bounded numbers. -/
  total_bound : ∀ (l : List F) (B : ℝ), (∀ x ∈ l, ∃ a, val x = fin a ∧ |a| ≤ B) → l.length < 2 ^ 50 → l.length * B ≤ sumMax → ∃ r, val (total l) = fin r ∧ |r| ≤ 4 * l.length * B

end Nnet.NN.Flt
