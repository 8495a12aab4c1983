import Verif.Core
import Mathlib.Algebra.BigOperators.Group.Finset.Basic
import Mathlib.Algebra.Field.Basic
/-!
# Armadillo matrices (`arma::mat`, src/type.h) and src/matop.cpp

Elements are from an arbitrary field (theorems about derivatives and costs use the reals): IEEE rounding, infinities and NaN are not
modelled in this half of the code. Armadillo's default run-time checks are modelled: a size mismatch or an out-of-range index throws
(`Stop.throw`). Unsigned index arguments are modelled as integers; a negative one stands for the huge unsigned value and is
out of range.
-/
namespace Nnet.NN
open Finset

/-- `arma::mat`: size and elements. `f` is 0 outside, so that equal matrices are equal objects. -/
@[ext] structure Mat (R : Type) [Zero R] where
  nr : Nat
  nc : Nat
  f : Nat → Nat → R
  out : ∀ i j, ¬ (i < nr ∧ j < nc) → f i j = 0

namespace Mat
section
variable {R : Type} [Zero R]

/-- The `r x c` matrix with elements `g i j`. -/
def of (r c : Nat) (g : Nat → Nat → R) : Mat R := ⟨r, c, fun i j => if i < r ∧ j < c then g i j else 0, fun _ _ h => if_neg h⟩

/-- `mat()`: the empty matrix. -/
def empty : Mat R := of 0 0 (fun _ _ => 0)

/-- `m.transform(g)` and Armadillo's elementwise functions. -/
def map (g : R → R) (m : Mat R) : Mat R := of m.nr m.nc (fun i j => g (m.f i j))

/-- Elementwise operation of two matrices: throws when the sizes differ. -/
def zip (g : R → R → R) (a b : Mat R) : Res (Mat R) :=
  if a.nr = b.nr ∧ a.nc = b.nc then .ok (of a.nr a.nc (fun i j => g (a.f i j) (b.f i j))) else .error .throw

/-- `m.t()`. -/
def tr (m : Mat R) : Mat R := of m.nc m.nr (fun i j => m.f j i)

/-- `m(i, j)` with bounds check. -/
def at' (m : Mat R) (i j : Int) : Res R :=
  if 0 ≤ i ∧ 0 ≤ j ∧ i < m.nr ∧ j < m.nc then .ok (m.f i.toNat j.toNat) else .error .throw

/-- `m(i, j) = v` with bounds check. -/
def setAt (m : Mat R) (i j : Int) (v : R) : Res (Mat R) :=
  if 0 ≤ i ∧ 0 ≤ j ∧ i < m.nr ∧ j < m.nc then
    .ok (of m.nr m.nc (fun a b => if a = i.toNat ∧ b = j.toNat then v else m.f a b))
  else .error .throw

/-- Bounds check of the sub-view with corners `(r1,c1)` and `(r2,c2)`, both included. -/
def InView (m : Mat R) (r1 c1 r2 c2 : Int) : Prop :=
  0 ≤ r1 ∧ 0 ≤ c1 ∧ r1 ≤ r2 ∧ c1 ≤ c2 ∧ r2 < m.nr ∧ c2 < m.nc

instance (m : Mat R) (r1 c1 r2 c2 : Int) : Decidable (m.InView r1 c1 r2 c2) := inferInstanceAs (Decidable (_ ∧ _))

/-- `m.submat(r1, c1, r2, c2)`. -/
def submat (m : Mat R) (r1 c1 r2 c2 : Int) : Res (Mat R) :=
  if m.InView r1 c1 r2 c2 then
    .ok (of (r2 - r1 + 1).toNat (c2 - c1 + 1).toNat (fun i j => m.f (i + r1.toNat) (j + c1.toNat)))
  else .error .throw

/-- `m.submat(r1, c1, r2, c2) op= v`, where `g old new` is the stored value. -/
def updSubmat (g : R → R → R) (m : Mat R) (r1 c1 r2 c2 : Int) (v : Mat R) : Res (Mat R) :=
  if m.InView r1 c1 r2 c2 then
    if v.nr = (r2 - r1 + 1).toNat ∧ v.nc = (c2 - c1 + 1).toNat then
      .ok (of m.nr m.nc (fun i j =>
        if r1 ≤ i ∧ (i : Int) ≤ r2 ∧ c1 ≤ j ∧ (j : Int) ≤ c2 then g (m.f i j) (v.f (i - r1.toNat) (j - c1.toNat)) else m.f i j))
    else .error .throw
  else .error .throw

/-- `m.rows(a, b)`. -/
def rows (m : Mat R) (a b : Int) : Res (Mat R) :=
  if 0 ≤ a ∧ a ≤ b ∧ b < m.nr then .ok (of (b - a + 1).toNat m.nc (fun i j => m.f (i + a.toNat) j)) else .error .throw

/-- `m.row(i)`. -/
def row (m : Mat R) (i : Int) : Res (Mat R) :=
  if 0 ≤ i ∧ i < m.nr then .ok (of 1 m.nc (fun _ j => m.f i.toNat j)) else .error .throw

/-- `m.cols(a, b)`. -/
def cols (m : Mat R) (a b : Int) : Res (Mat R) :=
  if 0 ≤ a ∧ a ≤ b ∧ b < m.nc then .ok (of m.nr (b - a + 1).toNat (fun i j => m.f i (j + a.toNat))) else .error .throw

/-- `m.insert_rows(k, v)`. The column counts must agree unless one of the matrices is empty (0 x 0). -/
def insertRows (m : Mat R) (k : Int) (v : Mat R) : Res (Mat R) :=
  if k < 0 ∨ (m.nr : Int) < k then .error .throw
  else if v.nc ≠ m.nc ∧ (0 < m.nr ∨ 0 < m.nc) ∧ (0 < v.nr ∨ 0 < v.nc) then .error .throw
  else .ok (of (m.nr + v.nr) (max m.nc v.nc) (fun i j =>
    if i < k.toNat then m.f i j else if i < k.toNat + v.nr then v.f (i - k.toNat) j else m.f (i - v.nr) j))

/-- `m.insert_cols(k, v)`. -/
def insertCols (m : Mat R) (k : Int) (v : Mat R) : Res (Mat R) :=
  if k < 0 ∨ (m.nc : Int) < k then .error .throw
  else if v.nr ≠ m.nr ∧ (0 < m.nr ∨ 0 < m.nc) ∧ (0 < v.nr ∨ 0 < v.nc) then .error .throw
  else .ok (of (max m.nr v.nr) (m.nc + v.nc) (fun i j =>
    if j < k.toNat then m.f i j else if j < k.toNat + v.nc then v.f i (j - k.toNat) else m.f i (j - v.nc)))

/-- `m.shed_col(0)`. -/
def shedCol0 (m : Mat R) : Res (Mat R) :=
  if 0 < m.nc then .ok (of m.nr (m.nc - 1) (fun i j => m.f i (j + 1))) else .error .throw

/-- `m.reshape(h, w)`: elements are taken and stored column by column, missing ones are 0. -/
def reshape (m : Mat R) (h w : Nat) : Mat R :=
  of h w (fun i j => let k := i + j * h
    if k < m.nr * m.nc then m.f (k % m.nr) (k / m.nr) else 0)

/-- `arma::fliplr(arma::flipud(m))`. -/
def flip (m : Mat R) : Mat R := of m.nr m.nc (fun i j => m.f (m.nr - 1 - i) (m.nc - 1 - j))

/-- `arma::repmat(m, r, c)`. -/
def repmat (m : Mat R) (r c : Nat) : Mat R := of (m.nr * r) (m.nc * c) (fun i j => m.f (i % m.nr) (j % m.nc))

/-- `mat(r, c)` for `int` sizes; the elements are whatever the memory contained. A negative size is a huge unsigned one. -/
def mk' (junk : Nat → Nat → R) (r c : Int) : Res (Mat R) :=
  if 0 ≤ r ∧ 0 ≤ c then .ok (of r.toNat c.toNat junk) else .error .throw

end

section
variable {R : Type} [Field R]

/-- `a + b`. -/
def add (a b : Mat R) : Res (Mat R) := zip (· + ·) a b
/-- `a - b`. -/
def sub (a b : Mat R) : Res (Mat R) := zip (· - ·) a b
/-- `a % b` (elementwise product). -/
def schur (a b : Mat R) : Res (Mat R) := zip (· * ·) a b
/-- `a / b` (elementwise quotient). -/
def ediv (a b : Mat R) : Res (Mat R) := zip (· / ·) a b
/-- `c * m`. -/
def smul (c : R) (m : Mat R) : Mat R := m.map (fun x => c * x)
/-- `m / c`. -/
def divS (m : Mat R) (c : R) : Mat R := m.map (fun x => x / c)

/-- `a * b` (matrix product). -/
def mul (a b : Mat R) : Res (Mat R) :=
  if a.nc = b.nr then .ok (of a.nr b.nc (fun i j => ∑ k ∈ range a.nc, a.f i k * b.f k j)) else .error .throw

/-- `arma::accu(m)`. -/
def accu (m : Mat R) : R := ∑ i ∈ range m.nr, ∑ j ∈ range m.nc, m.f i j

/-- `arma::sum(m, 1)`. -/
def sumRows (m : Mat R) : Mat R := of m.nr 1 (fun i _ => ∑ j ∈ range m.nc, m.f i j)

end
end Mat

/-! ## src/matop.cpp -/

section
variable {R : Type} [Field R]

/-- The `<cmath>` functions used by Armadillo's elementwise functions and by the trainers. -/
class Transc (R : Type) where
  exp : R → R
  log : R → R
  sqrt : R → R

/-- `funcop(m, f)`, matop.cpp:5-9. -/
def funcop (m : Mat R) (g : R → R) : Mat R := m.map g

/-- `addcol(m)`, matop.cpp:11-15: a matrix of ones, then its part right of column 0 is overwritten by `m`. -/
def addcol (m : Mat R) : Res (Mat R) :=
  let n := Mat.of m.nr (m.nc + 1) (fun _ _ => (1 : R))
  n.updSubmat (fun _ v => v) 0 1 ((n.nr : Int) - 1) ((n.nc : Int) - 1) m

/-- The constant column or row built by matop.cpp:20-30 and matop.cpp:45-55. -/
def constMat [DecidableEq R] (r c : Nat) (value : R) : Mat R :=
  if value = 0 then Mat.of r c (fun _ _ => 0)
  else if value = 1 then Mat.of r c (fun _ _ => 1)
  else (Mat.of r c (fun _ _ => (1 : R))).map (fun x => x * value)

/-- `addcols(m, index, value)`, matop.cpp:17-33. -/
def addcols [DecidableEq R] (m : Mat R) (index : Int) (value : R) : Res (Mat R) :=
  m.insertCols index (constMat m.nr 1 value)

/-- `addrow(m)`, matop.cpp:35-40. -/
def addrow (m : Mat R) : Res (Mat R) := m.insertRows 0 (Mat.of 1 m.nc (fun _ _ => 1))

/-- `addrows(m, index, value)`, matop.cpp:42-58. -/
def addrows [DecidableEq R] (m : Mat R) (index : Int) (value : R) : Res (Mat R) :=
  m.insertRows index (constMat 1 m.nc value)

/-- `sumall(m)`, matop.cpp:60-63. -/
def sumall (m : Mat R) : R := m.accu

/-- `rowsum(m)`, matop.cpp:65-67. -/
def rowsum (m : Mat R) : Mat R := m.sumRows

/-- `exponential(m)`, matop.cpp:69-71. -/
def exponential [Transc R] (m : Mat R) : Mat R := m.map Transc.exp

/-- `repeat(m, row, col)`, matop.cpp:73-75, for non-negative counts; a negative count becomes a huge unsigned size and throws. -/
def repeatM (m : Mat R) (row col : Int) : Res (Mat R) :=
  if 0 ≤ row ∧ 0 ≤ col then .ok (m.repmat row.toNat col.toNat) else .error .throw

/-- `logorithm(m)`, matop.cpp:77-79. -/
def logorithm [Transc R] (m : Mat R) : Mat R := m.map Transc.log

end
end Nnet.NN
