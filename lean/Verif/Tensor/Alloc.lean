import Verif.Tensor.Ops
/-!
# Tensors when memory runs out

The functions of Heap.lean and Ops.lean again, for calls in which a request for memory may fail with `std::bad_alloc`. Requests are made by `new` for elements and by the vectors inside `TensorShape`.

Simplifications: the requests of one stretch of code that has no effect but its temporaries (the copies made by `t.shape()`, the two vectors of a `TensorShape` under construction) are one request. A vector that is
assigned asks for memory only if it becomes longer. `return output;` makes no copy.
-/
namespace Nnet.Tensor

/-- Heap, and which of the requests for memory still to come succeed. -/
structure St (R : Type) where
  heap : Heap R
  mem : Nat → Bool

/-- How a call ends: it returns, `std::bad_alloc` leaves it, or it stops otherwise (failed `assert`, undefined behaviour). -/
inductive End (α : Type) where
  | ret (a : α)
  | bad
  | stop (s : Stop)

/-- A call that may run out of memory. -/
abbrev A (R α : Type) := St R → End α × St R

variable {R : Type} {α β : Type}

namespace A

def ret (a : α) : A R α := fun st => (.ret a, st)

/-- `m; f`: an exception in `m` leaves the rest out. -/
def bind (m : A R α) (f : α → A R β) : A R β := fun st =>
  match m st with
  | (.ret a, st) => f a st
  | (.bad, st) => (.bad, st)
  | (.stop s, st) => (.stop s, st)

instance : Monad (A R) where
  pure := ret
  bind := bind

/-- A request for memory. -/
def ask : A R Unit := fun st => (if st.mem 0 then .ret () else .bad, { st with mem := fun n => st.mem (n + 1) })

/-- A computation that asks for no memory. -/
def res (r : Res α) : A R α := fun st =>
  match r with
  | .ok a => (.ret a, st)
  | .error s => (.stop s, st)

/-- Statements that change the heap and ask for no memory. -/
def onHeap (f : Heap R → Res (Heap R)) : A R Unit := fun st =>
  match f st.heap with
  | .ok h => (.ret (), { st with heap := h })
  | .error s => (.stop s, st)

/-- `new`. -/
def new (b : Block R) : A R Nat := bind ask fun _ => fun st => (.ret (st.heap.alloc b).1, { st with heap := (st.heap.alloc b).2 })

/-- The rest of a block after the definition of a local tensor: an exception destroys the tensor. -/
def local' (t : Tensor) (m : A R α) : A R α := fun st =>
  match m st with
  | (.bad, st) =>
    match t.destroy st.heap with
    | .ok h => (.bad, { st with heap := h })
    | .error s => (.stop s, st)
  | r => r

end A

/-- `TensorShape::TensorShape(const vector<int>&)`, tensor_shape.cpp:9-27. -/
def mkShapeA (dims : List Int) : A R TensorShape := do
  A.ask
  A.res (mkShape dims)

/-- `TensorShape::TensorShape(const TensorShape&)`, tensor_shape.cpp:29-30. -/
def copyShapeA (s : TensorShape) : A R TensorShape := mkShapeA s.shape

/-- The assignments of the two vectors, tensor_shape.cpp:34-35: what the target is afterwards, also after an exception. -/
def assignVectors (old temp : TensorShape) : St R → End Unit × TensorShape × St R := fun st =>
  match (if old.shape.length < temp.shape.length then A.ask else A.ret ()) st with
  | (.ret _, st) =>
    match (if old.chunk.length < temp.chunk.length then A.ask else A.ret ()) st with
    | (.ret _, st) => (.ret (), ⟨temp.shape, temp.chunk⟩, st)
    | (e, st) => (e, ⟨temp.shape, old.chunk⟩, st)
  | (e, st) => (e, old, st)

/-- `TensorShape::operator=`, tensor_shape.cpp:32-37: what the target is afterwards, also after an exception. -/
def assignShapeA (old s : TensorShape) : St R → End Unit × TensorShape × St R := fun st =>
  match copyShapeA s st with
  | (.ret temp, st) => assignVectors old temp st
  | (.bad, st) => (.bad, old, st)
  | (.stop e, st) => (.stop e, old, st)

namespace Tensor

/-- `Tensor()`, tensor.cpp:14-15. -/
def mkDefaultA : A R Tensor := do
  let s ← mkShapeA [0]
  A.ret ⟨s, none⟩

/-- `Tensor(const DType val)`, tensor.cpp:17-19. -/
def ofValA (v : R) : A R Tensor := do
  let s ← mkShapeA [0]
  let p ← A.new ⟨[some v], false, true⟩
  A.ret ⟨s, some p⟩

/-- `Tensor(const TensorShape&)`, tensor.cpp:29-33. -/
def ofShapeA [Zero R] (shape : TensorShape) : A R Tensor := do
  let s ← copyShapeA shape
  let n ← A.res (s.chunkAt 0)
  let p ← A.new ⟨List.replicate n.toNat (some 0), true, true⟩
  A.ret ⟨s, some p⟩

/-- `Tensor(const vector<int>&)`, tensor.cpp:26-27. -/
def ofDimsA [Zero R] (dims : List Int) : A R Tensor := do
  let s ← mkShapeA dims
  ofShapeA s

/-- Copy constructor, tensor.cpp:35-40. -/
def copyCtorA [Zero R] (src : Tensor) : A R Tensor := do
  let s ← copyShapeA src.shape
  let n ← A.res (s.chunkAt 0)
  let p ← A.new ⟨List.replicate n.toNat (some 0), true, true⟩
  A.onHeap (copyLoop (some p) src.data n.toNat 0)
  A.ret ⟨s, some p⟩

/-- The first half of copy assignment, tensor.cpp:49-56: what `data_` is afterwards, also after an exception: between `delete[] data_` and the end of `new` it points to the released buffer. -/
def assignBufferA [Zero R] (dst src : Tensor) : St R → End Unit × Ptr × St R := fun st =>
  match dst.chunkAt 0, src.chunkAt 0 with
  | .ok c, .ok c' =>
    match dst.data with
    | some p =>
      if c < c' then
        match st.heap.deleteArr (some p) with
        | .ok h =>
          match A.new ⟨List.replicate c'.toNat none, true, true⟩ { st with heap := h } with
          | (.ret q, st) => (.ret (), some q, st)
          | (.bad, st) => (.bad, some p, st)
          | (.stop s, st) => (.stop s, some p, st)
        | .error s => (.stop s, some p, st)
      else (.ret (), some p, st)
    | none =>
      match A.new ⟨List.replicate c.toNat (some 0), true, true⟩ st with
      | (.ret q, st) => (.ret (), some q, st)
      | (.bad, st) => (.bad, none, st)
      | (.stop s, st) => (.stop s, none, st)
  | .error s, _ => (.stop s, dst.data, st)
  | _, .error s => (.stop s, dst.data, st)

/-- `operator=(const Tensor&)`, tensor.cpp:47-60, for two different objects: what `*this` is afterwards, also after an exception. -/
def copyAssignA [Zero R] (dst src : Tensor) : St R → End Unit × Tensor × St R := fun st =>
  match assignBufferA dst src st with
  | (.ret _, p, st) =>
    match (do let c ← dst.chunkAt 0; copyLoop p src.data c.toNat 0 st.heap : Res (Heap R)) with
    | .ok h =>
      match assignShapeA dst.shape src.shape { st with heap := h } with
      | (e, s, st) => (e, ⟨s, p⟩, st)
    | .error s => (.stop s, ⟨dst.shape, p⟩, st)
  | (e, p, st) => (e, ⟨dst.shape, p⟩, st)

/-- Move constructor, tensor.cpp:42-45. An exception that leaves the body of a constructor does not run the destructor of the object. -/
def moveCtorA [Zero R] (src : Tensor) : A R Tensor := do
  let s ← copyShapeA src.shape
  fun st => match copyAssignA ⟨s, none⟩ src st with
    | (.ret _, t, st) => (.ret t, st)
    | (.bad, _, st) => (.bad, st)
    | (.stop e, _, st) => (.stop e, st)

/-- Move assignment, tensor.cpp:62-68, for two different objects: what they are afterwards, also after an exception. -/
def moveAssignA (dst src : Tensor) : St R → End Unit × Tensor × Tensor × St R := fun st =>
  match assignShapeA dst.shape src.shape st with
  | (e, s, st) => (e, ⟨s, src.data⟩, ⟨src.shape, none⟩, st)

/-- `Reshape(const TensorShape&)`, tensor.cpp:122-126: what the tensor is afterwards, also after an exception. -/
def reshapeA (t : Tensor) (shape : TensorShape) : St R → End Unit × Tensor × St R := fun st =>
  match (do let c ← shape.chunkAt 0; let c' ← t.chunkAt 0; assertC (c = c') : Res Unit) with
  | .error s => (.stop s, t, st)
  | .ok _ =>
    match assignShapeA t.shape shape st with
    | (e, s, st) => (e, ⟨s, t.data⟩, st)

/-- `Ones(const TensorShape&)`, tensor.cpp:80-87. -/
def onesA [Zero R] [One R] (shape : TensorShape) : A R Tensor := do
  let out ← ofShapeA shape
  A.local' out do
    let n ← A.res (shape.chunkAt 0)
    A.onHeap (fillLoop out.data (fun _ => 1) n.toNat 0)
    A.ret out

/-- `Eyes(int)`, tensor.cpp:94-102. -/
def eyesA [Zero R] [One R] (size : Int) : A R Tensor := do
  let s ← mkShapeA [size, size]
  let out ← ofShapeA s
  A.local' out do
    A.onHeap (eyesLoop out.data size size.toNat 0)
    A.ret out

/-- The loop of `Gaussian`, tensor.cpp:110-112: `output.shape()` in the condition makes a copy before every iteration and at the end. -/
def gaussianLoopA (p : Ptr) (draws : Nat → R) : (todo : Nat) → (i : Nat) → A R Unit
  | 0, _ => A.ask
  | todo + 1, i => do
    A.ask
    A.onHeap (fun h => h.write p i (draws i))
    gaussianLoopA p draws todo (i + 1)

/-- `Gaussian(const TensorShape&, mean, stddev)`, tensor.cpp:104-114. -/
def gaussianA [Zero R] (shape : TensorShape) (draws : Nat → R) : A R Tensor := do
  let out ← ofShapeA shape
  A.local' out do
    let n ← A.res (out.chunkAt 0)
    gaussianLoopA out.data draws n.toNat 0
    A.ret out

end Tensor

/-- What the operations in src/tensor/ops that return a tensor of their own have in common: checks, the shape of the result, and statements that fill the result and make no copy of a shape after the first. -/
structure OpCode (R : Type) where
  pre : Res Unit
  shape : Res TensorShape
  body : Tensor → Heap R → Res (Heap R)

/-- An operation when memory may run out: the checks and `t1.shape()` copy shapes, then `Tensor output(shape)`, then `output` is a local object (add.cpp:9-33 and alike). -/
def OpCode.runA [Zero R] (c : OpCode R) : A R Tensor := do
  A.ask
  A.res c.pre
  A.ask
  let s ← A.res c.shape
  let out ← Tensor.ofShapeA s
  A.local' out do
    A.ask
    A.onHeap (c.body out)
    A.ret out

/-- add.cpp:8-34, sub.cpp:8-34, mul.cpp:8-34, div.cpp:10-44. -/
def broadcastCode (f : R → R → R) (σ : Sched) (t1 t2 : Tensor) : OpCode R where
  pre := checkSuffix t1 t2 (t1.shape.size - t2.shape.size)
  shape := .ok t1.shape
  body out h :=
    if t1.shape.size - t2.shape.size = 0 then do
      let chunk ← t1.chunkAt 0
      parFor σ h chunk (fun i => .ok (iter2 (t1.cell i) (t2.cell i) (fun x y => some (f x y)) (out.cell i)))
    else do
      let chunk ← t1.chunkAt (t1.shape.size - t2.shape.size - 1)
      let m ← t1.chunkAt (t1.shape.size - t2.shape.size)
      parFor σ h chunk (fun i => do
        let k ← cmod i m
        pure (iter2 (t1.cell i) (t2.cell k) (fun x y => some (f x y)) (out.cell i)))

/-- Loops over one tensor: add.cpp:36-46 and the others listed at `mapOp`. -/
def mapCode (pre : Res Unit) (g : R → Option R) (σ : Sched) (t : Tensor) : OpCode R where
  pre := pre
  shape := .ok t.shape
  body out h := do
    let chunk ← t.chunkAt 0
    parFor σ h chunk (fun i => .ok (iter1 (t.cell i) g (out.cell i)))

/-- Loops over two tensors of one shape: power.cpp:9-25, equal.cpp:9-27, equal.cpp:43-63, with their checks. -/
def zipCode (pre : Res Unit) (g : R → R → Option R) (σ : Sched) (t1 t2 : Tensor) : OpCode R where
  pre := pre
  shape := .ok t1.shape
  body out h := do
    let chunk ← t1.chunkAt 0
    parFor σ h chunk (fun i => .ok (iter2 (t1.cell i) (t2.cell i) g (out.cell i)))

/-- reduce_sum.cpp:18-49, reduce_mean.cpp:18-49. -/
def reduceCode [Zero R] [Add R] (fin : R → Int → R) (σ : Sched) (t : Tensor) (axis : Int) : OpCode R where
  pre := do
    assertC (t.shape.size = 2)
    let _ ← t.shapeAt 0
    let _ ← t.shapeAt 1
  shape := do
    let rows ← t.shapeAt 0
    let cols ← t.shapeAt 1
    if axis = 0 then mkShape [cols] else mkShape [rows]
  body out h := do
    let rows ← t.shapeAt 0
    let cols ← t.shapeAt 1
    if axis = 0 then
      parFor σ h cols (fun i => do
        let cells ← colCells t cols i 0 rows.toNat
        pure ⟨cells, fun vs => some (fin (vs.foldl (· + ·) 0) rows), out.cell i⟩)
    else
      parFor σ h rows (fun i => do
        let cells ← rowCells t cols i 0
        pure ⟨cells, fun vs => some (fin (vs.foldl (· + ·) 0) cols), out.cell i⟩)

/-- argmax.cpp:8-45, argmin.cpp:8-45. -/
def argCode (better : R → R → Bool) (σ : Sched) (t : Tensor) (axis : Int) : OpCode R where
  pre := do
    assertC (t.shape.size = 2)
    let _ ← t.shapeAt 0
    let _ ← t.shapeAt 1
  shape := do
    let rows ← t.shapeAt 0
    let cols ← t.shapeAt 1
    if axis = 0 then mkShape [cols] else mkShape [rows]
  body out h := do
    let rows ← t.shapeAt 0
    let cols ← t.shapeAt 1
    let pick : List R → Option R := fun vs => match vs with
      | [] => none
      | v :: vs => some (vs.foldl (fun cur val => if better val cur then val else cur) v)
    if axis = 0 then
      parFor σ h cols (fun i => do
        let cells ← colCells t cols i 1 rows.toNat
        pure ⟨t.cell i :: cells, pick, out.cell i⟩)
    else
      parFor σ h rows (fun i => do
        let k ← cint (i * cols)
        let cells ← rowCells t cols i 1
        pure ⟨t.cell k :: cells, pick, out.cell i⟩)

/-- The (re)allocation matmul.cpp:29-32: what `output` is afterwards, also after an exception. The temporary is destroyed in both cases; it owns nothing once its buffer has moved. -/
def matmulPrepareA [Zero R] (out : Tensor) (m n : Int) : St R → End Unit × Tensor × St R := fun st =>
  match (match out.data with
    | none => pure true
    | some _ => do
      let c ← out.chunkAt 0
      let mn ← cint (m * n)
      pure (decide (c < mn)) : Res Bool) with
  | .error s => (.stop s, out, st)
  | .ok false => (.ret (), out, st)
  | .ok true =>
    match (do let s ← mkShapeA [m, n]; Tensor.ofShapeA s : A R Tensor) st with
    | (.ret tmp, st) =>
      match Tensor.moveAssignA out tmp st with
      | (e, out', tmp', st) =>
        match tmp'.destroy st.heap with
        | .ok h => (e, out', { st with heap := h })
        | .error s => (.stop s, out', st)
    | (.bad, st) => (.bad, out, st)
    | (.stop s, st) => (.stop s, out, st)

/-- `matmul(t1, t2, output)`, matmul.cpp:16-45: the returned tensor, and what `output` is afterwards, also after an exception. -/
def matmulA [Zero R] [Add R] [Mul R] (σ : Nat → Sched) (t1 t2 out : Tensor) : St R → End Tensor × Tensor × St R := fun st =>
  match (do A.ask; A.res (do matmulCheck t1 t2; let m ← t1.shapeAt 0; let k ← t1.shapeAt 1; let n ← t2.shapeAt 1; pure (m, k, n)) : A R (Int × Int × Int)) st with
  | (.bad, st) => (.bad, out, st)
  | (.stop s, st) => (.stop s, out, st)
  | (.ret (m, k, n), st) =>
    match matmulPrepareA out m n st with
    | (.bad, out, st) => (.bad, out, st)
    | (.stop s, out, st) => (.stop s, out, st)
    | (.ret _, out, st) =>
      match (do A.onHeap (matmulLoop σ t1 t2 out k n m.toNat 0); Tensor.copyCtorA out : A R Tensor) st with
      | (e, st) => (e, out, st)

/-- `operator%(t1, t2)`, matmul.cpp:9-14: `output` is a local object. -/
def matmulOpA [Zero R] [Add R] [Mul R] (σ : Nat → Sched) (t1 t2 : Tensor) : A R Tensor := do
  let out ← Tensor.mkDefaultA
  fun st => match matmulA σ t1 t2 out st with
    | (.ret r, out, st) =>
      match r.destroy st.heap with
      | .ok h => (.ret out, { st with heap := h })
      | .error s => (.stop s, st)
    | (.bad, out, st) =>
      match out.destroy st.heap with
      | .ok h => (.bad, { st with heap := h })
      | .error s => (.stop s, st)
    | (.stop s, _, st) => (.stop s, st)

end Nnet.Tensor
