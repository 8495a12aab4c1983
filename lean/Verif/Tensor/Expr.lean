import Verif.Tensor.Spec
import Mathlib.Data.Matrix.Mul
/-!
# Tensor expressions (C92)

A C++ expression over vectors and matrices written with the operators of src/tensor/ops, how the library evaluates it, and what it means
as matrix algebra. Simplifications: of the two operands of an operator the left one is evaluated first (C++ leaves the order open; only the
numbers of the buffers depend on it), and temporary tensors live on to the end.
-/
namespace Nnet.Tensor

/-- A vector with `n` or a matrix with `m x n` elements. -/
inductive Sh
  | vec (n : Nat)
  | mat (m n : Nat)

/-- The dimensions of the tensor. -/
def Sh.dims : Sh → List Int
  | vec n => [(n : Int)]
  | mat m n => [(m : Int), (n : Int)]

/-- The indices of its elements. -/
def Sh.Idx : Sh → Type
  | vec n => Fin n
  | mat m n => Fin m × Fin n

/-- Where the element is stored (row-major). -/
def Sh.pos : (s : Sh) → s.Idx → Nat
  | vec _, i => Fin.val i
  | mat _ n, (i, j) => i * n + j

/-- No dimension is 0 and the number of elements is an `int`. -/
def Sh.Ok : Sh → Prop
  | vec n => 0 < n ∧ (n : Int) ≤ intMax
  | mat m n => 0 < m ∧ 0 < n ∧ ((m * n : Nat) : Int) ≤ intMax

/-- The four operators `+`, `-`, `*`, `/`. -/
inductive Op
  | add | sub | mul | div

/-- The operators on elements. -/
def Op.fn {R : Type} [Add R] [Sub R] [Mul R] [Div R] : Op → R → R → R
  | add => fun a b => a + b
  | sub => fun a b => a - b
  | mul => fun a b => a * b
  | div => fun a b => a / b

/-- The operators on two tensors: add.cpp:8-34, sub.cpp:8-34, mul.cpp:8-34, div.cpp:10-44. -/
def Op.run {R : Type} [Zero R] [Add R] [Sub R] [Mul R] [Div R] : Op → Sched → Heap R → Tensor → Tensor → Res (Tensor × Heap R)
  | add => addTT
  | sub => subTT
  | mul => mulTT
  | div => divTT

/-- The operators on a tensor and a number: add.cpp:36-46, sub.cpp:36-46, mul.cpp:36-46, div.cpp:46-56. -/
def Op.runS {R : Type} [Zero R] [Add R] [Sub R] [Mul R] [Div R] : Op → Sched → Heap R → Tensor → R → Res (Tensor × Heap R)
  | add => addTS
  | sub => subTS
  | mul => mulTS
  | div => divTS

/-- Expressions. Each operator carries the schedule of its parallel loop. -/
inductive Expr (R : Type) : Sh → Type
  | var {s : Sh} (x : Nat) : Expr R s
  | zeros (s : Sh) : Expr R s
  | ones (s : Sh) : Expr R s
  | eyes (n : Nat) : Expr R (.mat n n)
  | neg {s : Sh} (σ : Sched) (a : Expr R s) : Expr R s
  | bin {s : Sh} (op : Op) (σ : Sched) (a b : Expr R s) : Expr R s
  | scalar {s : Sh} (op : Op) (σ : Sched) (a : Expr R s) (val : R) : Expr R s
  | row {m n : Nat} (op : Op) (σ : Sched) (a : Expr R (.mat m n)) (b : Expr R (.vec n)) : Expr R (.mat m n)
  | matmul {m k n : Nat} (σ : Nat → Sched) (a : Expr R (.mat m k)) (b : Expr R (.mat k n)) : Expr R (.mat m n)
  | sumRows {m n : Nat} (σ : Sched) (a : Expr R (.mat m n)) : Expr R (.vec n)
  | sumCols {m n : Nat} (σ : Sched) (a : Expr R (.mat m n)) : Expr R (.vec m)

variable {R : Type} [Ring R] [Div R]

/-- Evaluation by the library: `Zeros`, `Ones`, `Eyes` (tensor.cpp), unary `-` (negate.cpp), the operators of a tensor with a tensor of the
same shape, with a number and with a vector repeated over the rows, `%` (matmul.cpp), `reduce_sum(t, 0)` and `reduce_sum(t, 1)`
(reduce_sum.cpp). -/
def Expr.eval (vars : Nat → Tensor) : {s : Sh} → Expr R s → Heap R → Res (Tensor × Heap R)
  | _, .var x, h => .ok (vars x, h)
  | s, .zeros _, h => Tensor.zerosDims h s.dims
  | s, .ones _, h => Tensor.onesDims h s.dims
  | _, .eyes n, h => Tensor.eyes h (n : Int)
  | _, .neg σ a, h => do
    let (t, h) ← a.eval vars h
    negT σ h t
  | _, .bin op σ a b, h => do
    let (t, h) ← a.eval vars h
    let (u, h) ← b.eval vars h
    op.run σ h t u
  | _, .scalar op σ a val, h => do
    let (t, h) ← a.eval vars h
    op.runS σ h t val
  | _, .row op σ a b, h => do
    let (t, h) ← a.eval vars h
    let (u, h) ← b.eval vars h
    op.run σ h t u
  | _, .matmul σ a b, h => do
    let (t, h) ← a.eval vars h
    let (u, h) ← b.eval vars h
    matmulOp σ h t u
  | _, .sumRows σ a, h => do
    let (t, h) ← a.eval vars h
    reduceSumAxis σ h t 0
  | _, .sumCols σ a, h => do
    let (t, h) ← a.eval vars h
    reduceSumAxis σ h t 1

/-! ## Meaning -/

/-- A family of elements indexed by pairs as a matrix. -/
def asMatrix {m n : Nat} (A : (Sh.mat m n).Idx → R) : Matrix (Fin m) (Fin n) R := Matrix.of fun i j => A (i, j)

/-- What an expression means, given the values of the variables. -/
def Expr.denote (env : (s : Sh) → Nat → s.Idx → R) : {s : Sh} → Expr R s → s.Idx → R
  | s, .var x => env s x
  | _, .zeros _ => fun _ => 0
  | _, .ones _ => fun _ => 1
  | _, .eyes _ => fun p => (1 : Matrix _ _ R) p.1 p.2
  | _, .neg _ a => fun p => -a.denote env p
  | _, .bin op _ a b => fun p => op.fn (a.denote env p) (b.denote env p)
  | _, .scalar op _ a val => fun p => op.fn (a.denote env p) val
  | _, .row op _ a b => fun p => op.fn (a.denote env p) (b.denote env p.2)
  | _, .matmul _ a b => fun p => (asMatrix (a.denote env) * asMatrix (b.denote env)) p.1 p.2
  | _, .sumRows _ a => fun j => ∑ i, asMatrix (a.denote env) i j
  | _, .sumCols _ a => fun i => ∑ j, asMatrix (a.denote env) i j

omit [Ring R] [Div R] in
/-- Every shape in the expression is admissible. -/
def Expr.Ok : {s : Sh} → Expr R s → Prop
  | s, .var _ => s.Ok
  | s, .zeros _ => s.Ok
  | s, .ones _ => s.Ok
  | _, .eyes n => (Sh.mat n n).Ok
  | _, .neg _ a => a.Ok
  | _, .bin _ _ a b => a.Ok ∧ b.Ok
  | _, .scalar _ _ a _ => a.Ok
  | _, .row _ _ a b => a.Ok ∧ b.Ok
  | _, .matmul (m := m) (n := n) _ a b => (Sh.mat m n).Ok ∧ a.Ok ∧ b.Ok
  | _, .sumRows _ a => a.Ok
  | _, .sumCols _ a => a.Ok

/-- Tensor `t` has shape `s` and element `A i` at every index `i`. -/
def Value (h : Heap R) (t : Tensor) {s : Sh} (A : s.Idx → R) : Prop :=
  ∃ v, Holds h t s.dims v ∧ ∀ i, v[s.pos i]? = some (A i)

/-- Two tensors with the same dimensions and the same elements. -/
def SameTensor (h : Heap R) (t u : Tensor) : Prop := ∃ d v, Holds h t d v ∧ Holds h u d v

/-- The tensor variables that occur have the values `env` gives them. -/
def Expr.Ready (vars : Nat → Tensor) (env : (s : Sh) → Nat → s.Idx → R) (h : Heap R) : {s : Sh} → Expr R s → Prop
  | s, .var x => Value h (vars x) (env s x)
  | _, .zeros _ => True
  | _, .ones _ => True
  | _, .eyes _ => True
  | _, .neg _ a => a.Ready vars env h
  | _, .bin _ _ a b => a.Ready vars env h ∧ b.Ready vars env h
  | _, .scalar _ _ a _ => a.Ready vars env h
  | _, .row _ _ a b => a.Ready vars env h ∧ b.Ready vars env h
  | _, .matmul _ a b => a.Ready vars env h ∧ b.Ready vars env h
  | _, .sumRows _ a => a.Ready vars env h
  | _, .sumCols _ a => a.Ready vars env h

end Nnet.Tensor
