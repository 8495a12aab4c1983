import Verif.NN.FloatSpec
import Mathlib.Data.Int.Log
import Mathlib.Data.Real.Basic
import Mathlib.Algebra.Order.Round
import Mathlib.Analysis.SpecialFunctions.Log.Base
/-!
# IEEE 754 binary64

`double` of the platforms the library is built for: 53 bits of significand, exponents from -1074 (of the last bit of a subnormal number) to 1023, round to nearest, ties to even, signed zeros.
The C library's elementary functions and the order in which BLAS and Armadillo add are parameters (`Platform`): any functions within the bounds of `NN/FloatSpec.lean`, any order of summation,
with or without fused multiply-add, with or without skipping zero factors. NaNs are not told apart. `NN/Binary64Lemmas.lean` proves that this arithmetic has the properties `Ieee` lists.
-/
namespace Nnet.NN.Flt.B64
open FV
noncomputable section

/-- The nearest integer, the even one of two. -/
def roundEven (x : ℝ) : ℤ :=
  if x - ⌊x⌋ < 1 / 2 then ⌊x⌋ else if 1 / 2 < x - ⌊x⌋ then ⌊x⌋ + 1 else if Even ⌊x⌋ then ⌊x⌋ else ⌊x⌋ + 1

/-- Exponent of the last place of the numbers near `x`: 53 bits of significand, but not below -1074. -/
def expo (x : ℝ) : ℤ := max (Int.log 2 |x| - 52) (-1074)

/-- The nearest number with 53 bits of significand and exponent at least -1074, ties to even (exponents not bounded above). -/
def r64 (x : ℝ) : ℝ := roundEven (x / 2 ^ expo x) * 2 ^ expo x

open Classical in
/-- Round to nearest with overflow. -/
def rnd (x : ℝ) : FV := if overflow ≤ r64 x then pinf else if r64 x ≤ -overflow then ninf else fin (r64 x)

/-- `v` is a value of type `double`. -/
def IsDouble : FV → Prop
  | fin r => rnd r = fin r
  | _ => True

end
end Nnet.NN.Flt.B64

namespace Nnet.NN.Flt
open FV

/-- A `double`: its value, and the sign that matters if the value is 0. -/
structure Dbl where
  v : FV
  negz : Bool
  ok : B64.IsDouble v

namespace B64
noncomputable section

/-- The sign bit (of a NaN: false). -/
def sign (x : Dbl) : Bool :=
  open Classical in
  match x.v with
  | nan | pinf => false
  | ninf => true
  | fin r => if r = 0 then x.negz else decide (r < 0)

/-- `x / y`. -/
def div (x y : Dbl) : FV :=
  open Classical in
  match x.v, y.v with
  | nan, _ | _, nan => nan
  | pinf, pinf | pinf, ninf | ninf, pinf | ninf, ninf => nan
  | pinf, fin _ | ninf, fin _ => if sign x = sign y then pinf else ninf
  | fin _, pinf | fin _, ninf => fin 0
  | fin a, fin b => if b = 0 then (if a = 0 then nan else if sign x = sign y then pinf else ninf) else rnd (a / b)

/-- `fma(x, y, z)`: `x * y + z` rounded once. -/
def fma (x y z : FV) : FV :=
  match FV.mul fin x y with
  | fin p => (match z with
    | fin c => rnd (p + c)
    | v => v)
  | v => FV.add rnd v z

/-- How a sum of products is evaluated: rounded products, sums of two partial results, fused multiply-adds, zeros. -/
inductive Plan where
  | zero
  | prod (i : Nat)
  | add (l r : Plan)
  | fma (i : Nat) (t : Plan)

/-- The products a plan uses. -/
def Plan.leaves : Plan → List Nat
  | .zero => []
  | .prod i => [i]
  | .add l r => l.leaves ++ r.leaves
  | .fma i t => i :: t.leaves

/-- The value of a plan. -/
def Plan.eval (l : List (FV × FV)) : Plan → FV
  | .zero => fin 0
  | .prod i => let p := l.getD i (fin 0, fin 0); FV.mul rnd p.1 p.2
  | .add s t => FV.add rnd (s.eval l) (t.eval l)
  | .fma i t => let p := l.getD i (fin 0, fin 0); B64.fma p.1 p.2 (t.eval l)

/-- A plan for the products of `l`: uses each at most once, leaves out only products with a factor 0. -/
structure Plan.For (l : List (FV × FV)) (p : Plan) : Prop where
  nodup : p.leaves.Nodup
  inside : ∀ i ∈ p.leaves, i < l.length
  all : ∀ i q, l[i]? = some q → i ∈ p.leaves ∨ q.1 = fin 0 ∨ q.2 = fin 0

/-- What depends on the platform: the C library's functions, and how BLAS and Armadillo evaluate inner products and sums. -/
structure Platform where
  exp : FV → FV
  log : FV → FV
  tanh : FV → FV
  atan : FV → FV
  cos : FV → FV
  sin : FV → FV
  exp_double : ∀ v, IsDouble v → IsDouble (exp v)
  log_double : ∀ v, IsDouble v → IsDouble (log v)
  tanh_double : ∀ v, IsDouble v → IsDouble (tanh v)
  atan_double : ∀ v, IsDouble v → IsDouble (atan v)
  cos_double : ∀ v, IsDouble v → IsDouble (cos v)
  sin_double : ∀ v, IsDouble v → IsDouble (sin v)
  isExp : ∀ v, IsDouble v → IsExp v (exp v)
  isLog : ∀ v, IsDouble v → IsLog v (log v)
  isTanh : ∀ v, IsDouble v → IsTanh v (tanh v)
  isAtan : ∀ v, IsDouble v → IsAtan v (atan v)
  isCos : ∀ v, IsDouble v → IsTrig v (cos v)
  isSin : ∀ v, IsDouble v → IsTrig v (sin v)
  /-- The sign of a zero these functions return. -/
  sgn : FV → Bool
  /-- The sign of a zero result of an inner product or a sum. -/
  sumSgn : List (FV × FV) → Bool
  dotPlan : List (FV × FV) → Plan
  sumPlan : List FV → Plan
  dotPlan_ok : ∀ l, (dotPlan l).For l
  sumPlan_ok : ∀ l, (sumPlan l).For (l.map fun v => (v, fin 1))

/-! Results of the operations are of type `double`. -/

theorem isDouble_rnd_of (h : ∀ x q, rnd x = fin q → rnd q = fin q) (x : ℝ) : IsDouble (rnd x) := by
  cases hx : rnd x with
  | fin q => exact h x q hx
  | _ => trivial

end
end B64
end Nnet.NN.Flt
