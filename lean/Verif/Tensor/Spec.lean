import Verif.Tensor.Ops
import Mathlib.Algebra.BigOperators.Group.List.Basic
import Mathlib.Algebra.Order.BigOperators.Group.List
/-!
# Specification vocabulary of the tensor properties

Nothing here refers to how the code computes; only to what a tensor *is*: a list of dimensions and a list of elements in
row-major order.
-/
namespace Nnet.Tensor

/-- Dimension lists `TensorShape` is meant to accept: at least one dimension, the first `>= 0`, the others `> 0`. -/
def ValidDims (dims : List Int) : Prop := ∃ d ds, dims = d :: ds ∧ 0 ≤ d ∧ ∀ x ∈ ds, 0 < x

/-- Every product of trailing dimensions is representable as `int`. -/
def FitsInt (dims : List Int) : Prop := ∀ i, (dims.drop i).prod ≤ intMax

/-- Number of elements the library gives a tensor of these dimensions: their product, but 1 if the product is 0. -/
def numel (dims : List Int) : Nat := if dims.prod = 0 then 1 else dims.prod.toNat

variable {R : Type}

/-- Tensor `t` has dimensions `dims` and its buffer (block `p`, live, fully initialised) holds exactly the elements `vals`. -/
def HoldsAt (h : Heap R) (t : Tensor) (p : Nat) (dims : List Int) (vals : List R) : Prop :=
  mkShape dims = .ok t.shape ∧ vals.length = numel dims ∧ t.data = some p ∧
    ∃ arr, h.blocks[p]? = some ⟨vals.map some, arr, true⟩

/-- Tensor `t` is a well-formed tensor of dimensions `dims` with elements `vals`. -/
def Holds (h : Heap R) (t : Tensor) (dims : List Int) (vals : List R) : Prop := ∃ p, HoldsAt h t p dims vals

/-- `t` is a new tensor with dimensions `dims` and elements `vals`, in one new array buffer; every block that existed in `h` is
untouched in `h'` and nothing else was allocated. -/
def Fresh (h h' : Heap R) (t : Tensor) (dims : List Int) (vals : List R) : Prop :=
  mkShape dims = .ok t.shape ∧ vals.length = numel dims ∧ t.data = some h.blocks.length ∧
    h'.blocks = h.blocks ++ [⟨vals.map some, true, true⟩]

/-- Row-major position of a multi-index. -/
def flatIndex : List Int → List Nat → Nat
  | _ :: ds, i :: is => i * ds.prod.toNat + flatIndex ds is
  | _, _ => 0

/-- `is` is a multi-index of a tensor with dimensions `dims`. -/
def IsIndex : List Int → List Nat → Prop
  | [], [] => True
  | d :: ds, i :: is => (i : Int) < d ∧ IsIndex ds is
  | _, _ => False

/-- `out` is the elementwise combination of a tensor `v1` of dimensions `pre ++ d2` with a tensor `v2` of dimensions `d2`
repeated over the leading dimensions: at every multi-index, `f` of `v1` at that index and `v2` at its trailing part. -/
def IsBroadcast (f : R → R → R) (pre d2 : List Int) (v1 v2 out : List R) : Prop :=
  ∀ is, IsIndex (pre ++ d2) is →
    ∃ a b, v1[flatIndex (pre ++ d2) is]? = some a ∧ v2[flatIndex d2 (is.drop pre.length)]? = some b ∧
      out[flatIndex (pre ++ d2) is]? = some (f a b)

/-- Column `j` of an `r x c` tensor with elements `v` (row-major: element `(i,j)` is at position `i*c + j`). -/
def col [Zero R] (v : List R) (r c j : Nat) : List R := (List.range r).map (fun i => v.getD (i * c + j) 0)

/-- Row `i` of a tensor with `c` columns. -/
def row [Zero R] (v : List R) (c i : Nat) : List R := (List.range c).map (fun j => v.getD (i * c + j) 0)

/-- Element `(i,j)` of the product of an `m x k` tensor `v1` and a `k x n` tensor `v2`: the sum over `l = 0 .. k-1`, in this
order and starting from 0, of `v1(i,l) * v2(l,j)`. -/
def dotSpec [Zero R] [Add R] [Mul R] (k n : Nat) (v1 v2 : List R) (i j : Nat) : R :=
  (List.range k).foldl (fun acc l => acc + v1.getD (i * k + l) 0 * v2.getD (l * n + j) 0) 0

/-- The elements of that product, in row-major order. -/
def prodVals [Zero R] [Add R] [Mul R] (m k n : Nat) (v1 v2 : List R) : List R :=
  (List.range (m * n)).map (fun p => dotSpec k n v1 v2 (p / n) (p % n))

end Nnet.Tensor
