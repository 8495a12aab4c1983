import Verif.Tensor.Par
/-!
# The tensor operations (src/tensor/ops/*.cpp)

`t.shape()` returns a copy of the shape; since copying a constructed shape is the identity (C03), the model reads the shape
directly except where a new tensor is built from it. `σ` is the OpenMP schedule of the loop.
-/
namespace Nnet.Tensor

/-- The `<cmath>` functions and conversions used on elements. No laws. -/
class CMath (R : Type) where
  exp : R → R
  log : R → R
  sqrt : R → R
  pow : R → R → R
  abs : R → R
  /-- conversion of an `int` to the element type -/
  ofInt : Int → R

variable {R : Type}

/-- `i % m` for `int`s (truncated remainder; `m = 0` is undefined). -/
def cmod (i m : Int) : Res Int := if m = 0 then .error (.ub .divByZero) else .ok (Int.tmod i m)

/-- `t.data(i)` inside a loop. -/
def Tensor.cell (t : Tensor) (i : Int) : Cell := ⟨t.data, i⟩

/-- An iteration reading two elements. -/
def iter2 (a b : Cell) (g : R → R → Option R) (out : Cell) : Iter R :=
  ⟨[a, b], fun vs => match vs with | [x, y] => g x y | _ => none, out⟩

/-- An iteration reading one element. -/
def iter1 (a : Cell) (g : R → Option R) (out : Cell) : Iter R :=
  ⟨[a], fun vs => match vs with | [x] => g x | _ => none, out⟩

/-- The suffix check add.cpp:11-14 (identical in sub.cpp:11-14, mul.cpp:11-14, div.cpp:13-16): rank of `t2` at most that of
`t1`, and `t2.shape(i) == t1.shape(i + offset)`. -/
def checkSuffix (t1 t2 : Tensor) (offset : Int) : Res Unit := do
  assertC (offset ≥ 0)
  (List.range t2.shape.size.toNat).forM (fun (i : Nat) => do
    let a ← t2.shapeAt i
    let b ← t1.shapeAt (i + offset)
    assertC (a = b))

/-- The common body of the tensor-tensor operators `+` (add.cpp:8-34), `-` (sub.cpp:8-34), `*` (mul.cpp:8-34) and
`/` (div.cpp:10-44); the four differ only in the scalar operation `f`. In div.cpp the scalar division of floating-point values
never throws, so its `try`/`catch` is not modelled. -/
def broadcastOp [Zero R] (f : R → R → R) (σ : Sched) (h : Heap R) (t1 t2 : Tensor) : Res (Tensor × Heap R) := do
  let offset := t1.shape.size - t2.shape.size
  checkSuffix t1 t2 offset
  let (out, h) ← Tensor.ofShape h t1.shape
  if offset = 0 then do
    let chunk ← t1.chunkAt 0
    let h ← parFor σ h chunk (fun i =>
      .ok (iter2 (t1.cell i) (t2.cell i) (fun x y => some (f x y)) (out.cell i)))
    pure (out, h)
  else do
    let chunk ← t1.chunkAt (offset - 1)
    let m ← t1.chunkAt offset
    let h ← parFor σ h chunk (fun i => do
      let k ← cmod i m
      pure (iter2 (t1.cell i) (t2.cell k) (fun x y => some (f x y)) (out.cell i)))
    pure (out, h)

/-- `operator+(t1, t2)`, add.cpp:8-34, and its other name `add(t1, t2)`, add.cpp:48-51. -/
def addTT [Zero R] [Add R] (σ : Sched) (h : Heap R) (t1 t2 : Tensor) := broadcastOp (R := R) (· + ·) σ h t1 t2
/-- `operator-(t1, t2)`, sub.cpp:8-34, and its other name `sub(t1, t2)`, sub.cpp:48-51. -/
def subTT [Zero R] [Sub R] (σ : Sched) (h : Heap R) (t1 t2 : Tensor) := broadcastOp (R := R) (· - ·) σ h t1 t2
/-- `operator*(t1, t2)`, mul.cpp:8-34, and its other name `mul(t1, t2)`, mul.cpp:48-51. -/
def mulTT [Zero R] [Mul R] (σ : Sched) (h : Heap R) (t1 t2 : Tensor) := broadcastOp (R := R) (· * ·) σ h t1 t2
/-- `operator/(t1, t2)`, div.cpp:10-44, and its other name `div(t1, t2)`, div.cpp:58-61. -/
def divTT [Zero R] [Div R] (σ : Sched) (h : Heap R) (t1 t2 : Tensor) := broadcastOp (R := R) (· / ·) σ h t1 t2

/-- The common body of all elementwise loops over one tensor: add.cpp:36-46, sub.cpp:36-46, mul.cpp:36-46, div.cpp:46-56,
power.cpp:27-37, negate.cpp:7-17, exp.cpp:8-18, log.cpp:8-18, sqrt.cpp:8-18 (`g x = some _`), and the scalar comparisons
equal.cpp:29-41, equal.cpp:68-77 (`g x = none` where no store happens). -/
def mapOp [Zero R] (g : R → Option R) (σ : Sched) (h : Heap R) (t : Tensor) : Res (Tensor × Heap R) := do
  let (out, h) ← Tensor.ofShape h t.shape
  let chunk ← t.chunkAt 0
  let h ← parFor σ h chunk (fun i => .ok (iter1 (t.cell i) g (out.cell i)))
  pure (out, h)

/-- `operator+(t1, val)`, add.cpp:36-46, and its other name `add(t1, val)`, add.cpp:53-56. -/
def addTS [Zero R] [Add R] (σ : Sched) (h : Heap R) (t : Tensor) (val : R) := mapOp (fun x => some (x + val)) σ h t
/-- `operator-(t1, val)`, sub.cpp:36-46, and its other name `sub(t1, val)`, sub.cpp:53-56. -/
def subTS [Zero R] [Sub R] (σ : Sched) (h : Heap R) (t : Tensor) (val : R) := mapOp (fun x => some (x - val)) σ h t
/-- `operator*(t1, val)`, mul.cpp:36-46, and its other name `mul(t1, val)`, mul.cpp:53-56. -/
def mulTS [Zero R] [Mul R] (σ : Sched) (h : Heap R) (t : Tensor) (val : R) := mapOp (fun x => some (x * val)) σ h t
/-- `operator/(t1, val)`, div.cpp:46-56, and its other name `div(t1, val)`, div.cpp:63-66. -/
def divTS [Zero R] [Div R] (σ : Sched) (h : Heap R) (t : Tensor) (val : R) := mapOp (fun x => some (x / val)) σ h t
/-- `operator^(t, val)`, power.cpp:27-37, and its other name `power(t, val)`, power.cpp:44-47. -/
def powTS [Zero R] [CMath R] (σ : Sched) (h : Heap R) (t : Tensor) (val : R) :=
  mapOp (fun x => some (CMath.pow x val)) σ h t
/-- unary `operator-`, negate.cpp:7-17, and its other name `neg(t)`, negate.cpp:19-22. -/
def negT [Zero R] [Neg R] (σ : Sched) (h : Heap R) (t : Tensor) := mapOp (R := R) (fun x => some (-x)) σ h t
/-- `exp`, exp.cpp:8-18. -/
def expT [Zero R] [CMath R] (σ : Sched) (h : Heap R) (t : Tensor) := mapOp (R := R) (fun x => some (CMath.exp x)) σ h t
/-- `log`, log.cpp:8-18. -/
def logT [Zero R] [CMath R] (σ : Sched) (h : Heap R) (t : Tensor) := mapOp (R := R) (fun x => some (CMath.log x)) σ h t
/-- `sqrt`, sqrt.cpp:8-18. -/
def sqrtT [Zero R] [CMath R] (σ : Sched) (h : Heap R) (t : Tensor) := mapOp (R := R) (fun x => some (CMath.sqrt x)) σ h t

/-- The elementwise loop over two tensors shared by power.cpp:17-24, equal.cpp:17-26 and equal.cpp:53-62. -/
def zipLoop [Zero R] (g : R → R → Option R) (σ : Sched) (h : Heap R) (t1 t2 : Tensor) : Res (Tensor × Heap R) := do
  let (out, h) ← Tensor.ofShape h t1.shape
  let chunk ← t1.chunkAt 0
  let h ← parFor σ h chunk (fun i => .ok (iter2 (t1.cell i) (t2.cell i) g (out.cell i)))
  pure (out, h)

/-- `operator^(t1, t2)`, power.cpp:9-25, and its other name `power(t1, t2)`, power.cpp:39-42: shapes are compared in full. -/
def powTT [Zero R] [CMath R] (σ : Sched) (h : Heap R) (t1 t2 : Tensor) : Res (Tensor × Heap R) := do
  assertC (t1.shape.size = t2.shape.size)
  (List.range t1.shape.size.toNat).forM (fun (i : Nat) => do
    let a ← t1.shapeAt i
    let b ← t2.shapeAt i
    assertC (a = b))
  zipLoop (fun x y => some (CMath.pow x y)) σ h t1 t2

/-- The shape check of equal.cpp:11-15 and equal.cpp:47-51: ranks are compared, but then `t1.shape(i)` is compared with
`t1.shape(i)`. -/
def checkEqualShapes (t1 t2 : Tensor) : Res Unit := do
  assertC (t1.shape.size = t2.shape.size)
  (List.range t1.shape.size.toNat).forM (fun (i : Nat) => do
    let a ← t1.shapeAt i
    let b ← t1.shapeAt i
    assertC (a = b))

/-- `operator==(t1, t2)`, equal.cpp:9-27. -/
def eqTT [Zero R] [One R] [BEq R] (σ : Sched) (h : Heap R) (t1 t2 : Tensor) : Res (Tensor × Heap R) := do
  checkEqualShapes t1 t2
  zipLoop (R := R) (fun x y => if x == y then some 1 else none) σ h t1 t2

/-- `operator==(t, val)`, equal.cpp:29-41. -/
def eqTS [Zero R] [One R] [BEq R] (σ : Sched) (h : Heap R) (t : Tensor) (val : R) : Res (Tensor × Heap R) :=
  mapOp (fun x => if x == val then some 1 else none) σ h t

/-- `equal(t1, t2, eps)`, equal.cpp:43-63. -/
def equalTT [Zero R] [One R] [Sub R] [LT R] [LE R] [DecidableRel (α := R) (· < ·)] [DecidableRel (α := R) (· ≤ ·)] [CMath R]
    (σ : Sched) (h : Heap R) (t1 t2 : Tensor) (eps : R) : Res (Tensor × Heap R) := do
  assertC (0 ≤ eps)
  checkEqualShapes t1 t2
  zipLoop (fun x y => if CMath.abs (x - y) < eps then some 1 else none) σ h t1 t2

/-- `equal(t, val, eps)`, equal.cpp:65-78. -/
def equalTS [Zero R] [One R] [Sub R] [LT R] [LE R] [DecidableRel (α := R) (· < ·)] [DecidableRel (α := R) (· ≤ ·)] [CMath R]
    (σ : Sched) (h : Heap R) (t : Tensor) (val eps : R) : Res (Tensor × Heap R) := do
  assertC (0 ≤ eps)
  mapOp (fun x => if CMath.abs (x - val) < eps then some 1 else none) σ h t

/-- `for (int i = 0; i < chunk; ++i) sum += t.data(i);`, reduce_sum.cpp:12-14, reduce_mean.cpp:12-14. -/
def sumLoop [Add R] (h : Heap R) (t : Tensor) : (todo : Nat) → (i : Nat) → R → Res R
  | 0, _, acc => .ok acc
  | todo + 1, i, acc => do
    let v ← t.get h i
    sumLoop h t todo (i + 1) (acc + v)

/-- `reduce_sum(t)`, reduce_sum.cpp:8-16. -/
def reduceSum [Zero R] [Add R] (h : Heap R) (t : Tensor) : Res R := do
  let chunk ← t.chunkAt 0
  sumLoop h t chunk.toNat 0 0

/-- `reduce_mean(t)`, reduce_mean.cpp:8-16. -/
def reduceMean [Zero R] [Add R] [Div R] [CMath R] (h : Heap R) (t : Tensor) : Res R := do
  let chunk ← t.chunkAt 0
  let sum ← sumLoop h t chunk.toNat 0 0
  pure (sum / CMath.ofInt chunk)

/-- The cell `t.data(a * cols + b)` with `int` index arithmetic. -/
def Tensor.cell2 (t : Tensor) (a cols b : Int) : Res Cell := do
  let x ← cint (a * cols)
  let k ← cint (x + b)
  pure (t.cell k)

/-- Column `i` of an `rows x cols` tensor, `j` from `lo`: the cells `t.data(j * cols + i)`. -/
def colCells (t : Tensor) (cols i : Int) (lo rows : Nat) : Res (List Cell) :=
  (List.range' lo (rows - lo)).mapM (fun (j : Nat) => t.cell2 j cols i)

/-- Row `i` of a tensor with `cols` columns, `j` from `lo`: the cells `t.data(i * cols + j)`. -/
def rowCells (t : Tensor) (cols i : Int) (lo : Nat) : Res (List Cell) :=
  (List.range' lo (cols.toNat - lo)).mapM (fun (j : Nat) => t.cell2 i cols j)

/-- The common body of the axis reductions reduce_sum.cpp:18-49 and reduce_mean.cpp:18-49: accumulate from 0 and finish with
`fin acc n`, `n` the number of summands. Any `axis` other than 0 reduces rows. -/
def reduceAxis [Zero R] [Add R] (fin : R → Int → R) (σ : Sched) (h : Heap R) (t : Tensor) (axis : Int) :
    Res (Tensor × Heap R) := do
  assertC (t.shape.size = 2)
  let rows ← t.shapeAt 0
  let cols ← t.shapeAt 1
  if axis = 0 then do
    let s ← mkShape [cols]
    let (out, h) ← Tensor.ofShape h s
    let h ← parFor σ h cols (fun i => do
      let cells ← colCells t cols i 0 rows.toNat
      pure ⟨cells, fun vs => some (fin (vs.foldl (· + ·) 0) rows), out.cell i⟩)
    pure (out, h)
  else do
    let s ← mkShape [rows]
    let (out, h) ← Tensor.ofShape h s
    let h ← parFor σ h rows (fun i => do
      let cells ← rowCells t cols i 0
      pure ⟨cells, fun vs => some (fin (vs.foldl (· + ·) 0) cols), out.cell i⟩)
    pure (out, h)

/-- `reduce_sum(t, axis)`, reduce_sum.cpp:18-49. -/
def reduceSumAxis [Zero R] [Add R] (σ : Sched) (h : Heap R) (t : Tensor) (axis : Int) : Res (Tensor × Heap R) :=
  reduceAxis (R := R) (fun acc _ => acc) σ h t axis

/-- `reduce_mean(t, axis)`, reduce_mean.cpp:18-49. -/
def reduceMeanAxis [Zero R] [Add R] [Div R] [CMath R] (σ : Sched) (h : Heap R) (t : Tensor) (axis : Int) :
    Res (Tensor × Heap R) :=
  reduceAxis (R := R) (fun acc n => acc / CMath.ofInt n) σ h t axis

/-- The common body of argmax.cpp:8-45 and argmin.cpp:8-45: start with the first element of the column / row and replace the
current value by `val` whenever `better val cur`. The stored result is the value, not its position. -/
def argAxis [Zero R] (better : R → R → Bool) (σ : Sched) (h : Heap R) (t : Tensor) (axis : Int) :
    Res (Tensor × Heap R) := do
  assertC (t.shape.size = 2)
  let rows ← t.shapeAt 0
  let cols ← t.shapeAt 1
  let pick : List R → Option R := fun vs => match vs with
    | [] => none
    | v :: vs => some (vs.foldl (fun cur val => if better val cur then val else cur) v)
  if axis = 0 then do
    let s ← mkShape [cols]
    let (out, h) ← Tensor.ofShape h s
    let h ← parFor σ h cols (fun i => do
      let cells ← colCells t cols i 1 rows.toNat
      pure ⟨t.cell i :: cells, pick, out.cell i⟩)
    pure (out, h)
  else do
    let s ← mkShape [rows]
    let (out, h) ← Tensor.ofShape h s
    let h ← parFor σ h rows (fun i => do
      let k ← cint (i * cols)
      let cells ← rowCells t cols i 1
      pure ⟨t.cell k :: cells, pick, out.cell i⟩)
    pure (out, h)

/-- `argmax(t, axis)`, argmax.cpp:8-45. -/
def argmaxT [Zero R] [LT R] [DecidableRel (α := R) (· < ·)] (σ : Sched) (h : Heap R) (t : Tensor) (axis : Int) :=
  argAxis (R := R) (fun val cur => decide (cur < val)) σ h t axis

/-- `argmin(t, axis)`, argmin.cpp:8-45. -/
def argminT [Zero R] [LT R] [DecidableRel (α := R) (· < ·)] (σ : Sched) (h : Heap R) (t : Tensor) (axis : Int) :=
  argAxis (R := R) (fun val cur => decide (val < cur)) σ h t axis

/-- The values `a0, b0, a1, b1, ...` read by one matmul iteration, combined as `sum += a * b` (matmul.cpp:37-40). -/
def dotAcc [Add R] [Mul R] : R → List R → R
  | acc, a :: b :: rest => dotAcc (acc + a * b) rest
  | acc, _ => acc

/-- The cells read by iteration `(i, j)` of matmul.cpp:37-40: `t1.data(i*k+l)`, `t2.data(l*n+j)` for `l = 0 .. k-1`. -/
def dotCells (t1 t2 : Tensor) (k n i j : Int) : Res (List Cell) := do
  let cs ← (List.range k.toNat).mapM (fun (l : Nat) => do
    let a ← t1.cell2 i k l
    let b ← t2.cell2 l n j
    pure [a, b])
  pure cs.flatten

/-- The loops matmul.cpp:34-43; only the inner loop over `j` is parallel, with schedule `σ i` in outer iteration `i`. -/
def matmulLoop [Zero R] [Add R] [Mul R] (σ : Nat → Sched) (t1 t2 out : Tensor) (k n : Int) :
    (todo : Nat) → (i : Nat) → Heap R → Res (Heap R)
  | 0, _, h => .ok h
  | todo + 1, i, h => do
    let h ← parFor (σ i) h n (fun j => do
      let cells ← dotCells t1 t2 k n i j
      let o ← out.cell2 i n j
      pure ⟨cells, fun vs => some (dotAcc 0 vs), o⟩)
    matmulLoop σ t1 t2 out k n todo (i + 1) h

/-- The checks matmul.cpp:19-24. -/
def matmulCheck (t1 t2 : Tensor) : Res Unit := do
  assertC (t1.shape.size = 2 ∧ t2.shape.size = 2)
  let a1 ← t1.shapeAt 1
  let b0 ← t2.shapeAt 0
  assertC (a1 = b0)
  let a0 ← t1.shapeAt 0
  assertC (a0 > 0)
  assertC (b0 > 0)
  let b1 ← t2.shapeAt 1
  assertC (a1 > 0)
  assertC (b1 > 0)

/-- The (re)allocation matmul.cpp:29-32: `output = Tensor(TensorShape({m, n}))` is a move assignment from a temporary whose
destruction does nothing. -/
def matmulPrepare [Zero R] (h : Heap R) (out : Tensor) (m n : Int) : Res (Tensor × Heap R) := do
  let realloc ← (match out.data with
    | none => pure true
    | some _ => do
      let c ← out.chunkAt 0
      let mn ← cint (m * n)
      pure (decide (c < mn)) : Res Bool)
  if realloc then do
    let s ← mkShape [m, n]
    let (tmp, h) ← Tensor.ofShape h s
    let (out', tmp') ← Tensor.moveAssign out tmp
    let h ← tmp'.destroy h
    pure (out', h)
  else pure (out, h)

/-- `matmul(t1, t2, output)`, matmul.cpp:16-45: gives the new `output`, the returned copy of it, and the heap. `output` is an
object different from `t1` and `t2`; if it is the same object as an operand, pass the same tensor value (its buffer is then
read and written by the loop). -/
def matmul [Zero R] [Add R] [Mul R] (σ : Nat → Sched) (h : Heap R) (t1 t2 out : Tensor) :
    Res (Tensor × Tensor × Heap R) := do
  matmulCheck t1 t2
  let m ← t1.shapeAt 0
  let k ← t1.shapeAt 1
  let n ← t2.shapeAt 1
  let (out, h) ← matmulPrepare h out m n
  let h ← matmulLoop σ t1 t2 out k n m.toNat 0 h
  let (ret, h) ← Tensor.copyCtor h out
  pure (out, ret, h)

/-- `operator%(t1, t2)`, matmul.cpp:9-14: the copy returned by `matmul` is destroyed at the end of the statement. -/
def matmulOp [Zero R] [Add R] [Mul R] (σ : Nat → Sched) (h : Heap R) (t1 t2 : Tensor) : Res (Tensor × Heap R) := do
  let out ← Tensor.mkDefault
  let (out, ret, h) ← matmul σ h t1 t2 out
  let h ← ret.destroy h
  pure (out, h)

end Nnet.Tensor
