import Verif.Tensor.Shape
/-!
# Heap and the class `nn::tensor::Tensor` (src/tensor/tensor.h, src/tensor/tensor.cpp)

The element type `R` is arbitrary and its operations carry no laws, so `float` and `double` are instances.
-/
namespace Nnet.Tensor

/-- A heap block obtained from `new`. `cells` are the elements (`none` = indeterminate), `isArray` tells
`new T[n]` from `new T`, `live` is cleared by `delete[]`. -/
structure Block (R : Type) where
  cells : List (Option R)
  isArray : Bool
  live : Bool
  deriving DecidableEq, Repr

/-- The heap: blocks are named by their allocation order; block names are never reused. Allocation never fails. -/
structure Heap (R : Type) where
  blocks : List (Block R)
  deriving DecidableEq, Repr

/-- A `DType*` that points to the start of a block; `none` is `nullptr`. -/
abbrev Ptr := Option Nat

variable {R : Type}

namespace Heap

/-- `new`: the new block gets the next name. -/
def alloc (h : Heap R) (b : Block R) : Nat × Heap R := (h.blocks.length, ⟨h.blocks ++ [b]⟩)

/-- Checks of a dereference `p[i]`; gives block name and offset. -/
def access (h : Heap R) (p : Ptr) (i : Int) : Res (Nat × Nat) :=
  match p with
  | none => .error (.ub .nullDeref)
  | some q =>
    match h.blocks[q]? with
    | none => .error (.ub .outOfBounds)
    | some b =>
      if b.live = true then
        if 0 ≤ i ∧ i.toNat < b.cells.length then .ok (q, i.toNat) else .error (.ub .outOfBounds)
      else .error (.ub .useAfterFree)

/-- The element at a checked position. -/
def cell (h : Heap R) (q k : Nat) : Option R :=
  match h.blocks[q]? with
  | some b => (b.cells[k]?).join
  | none => none

/-- Reading `p[i]`. -/
def read (h : Heap R) (p : Ptr) (i : Int) : Res R := do
  let (q, k) ← h.access p i
  match h.cell q k with
  | some v => .ok v
  | none => .error (.ub .uninitRead)

/-- Storing at a checked position. -/
def poke (h : Heap R) (q k : Nat) (v : R) : Heap R :=
  ⟨h.blocks.modify q (fun b => { b with cells := b.cells.set k (some v) })⟩

/-- Writing `p[i] = v`. -/
def write (h : Heap R) (p : Ptr) (i : Int) (v : R) : Res (Heap R) := do
  let (q, k) ← h.access p i
  .ok (h.poke q k v)

/-- `delete[] p`: undefined on a block already released or obtained from scalar `new`. -/
def deleteArr (h : Heap R) (p : Ptr) : Res (Heap R) :=
  match p with
  | none => .ok h
  | some q =>
    match h.blocks[q]? with
    | none => .error (.ub .outOfBounds)
    | some b =>
      if b.live = true then
        if b.isArray = true then .ok ⟨h.blocks.set q { b with live := false }⟩
        else .error (.ub .mismatchedDelete)
      else .error (.ub .doubleFree)

end Heap

/-- src/tensor/tensor.h:10-50, data members `shape_`, `data_`. -/
structure Tensor where
  shape : TensorShape
  data : Ptr
  deriving DecidableEq, Repr

/-- `for (int i = 0; i < n; ++i) dst[i] = src[i];` (tensor.cpp:39 and tensor.cpp:57), as recursion on the number of
iterations still to do: `i` is the next index. -/
def copyLoop (dst src : Ptr) : (todo : Nat) → (i : Nat) → Heap R → Res (Heap R)
  | 0, _, h => .ok h
  | todo + 1, i, h => do
    let v ← h.read src i
    let h' ← h.write dst i v
    copyLoop dst src todo (i + 1) h'

namespace Tensor

/-- `int shape(int i) const`, tensor.h:38. -/
def shapeAt (t : Tensor) (i : Int) : Res Int := t.shape.shapeAt i
/-- `int chunk(int i) const`, tensor.h:39. -/
def chunkAt (t : Tensor) (i : Int) : Res Int := t.shape.chunkAt i
/-- `DType data(int i) const`, tensor.h:40, and reading through `operator[]`, tensor.h:41. -/
def get (h : Heap R) (t : Tensor) (i : Int) : Res R := h.read t.data i
/-- Writing through `operator[]`, tensor.h:41. -/
def set (h : Heap R) (t : Tensor) (i : Int) (v : R) : Res (Heap R) := h.write t.data i v

/-- `Tensor()`, tensor.cpp:14-15. -/
def mkDefault : Res Tensor := do
  let s ← mkShape [0]
  pure ⟨s, none⟩

/-- `Tensor(const DType val)`, tensor.cpp:17-19: `new DType{val}` is a scalar `new`. -/
def ofVal (h : Heap R) (v : R) : Res (Tensor × Heap R) := do
  let s ← mkShape [0]
  let (p, h) := h.alloc ⟨[some v], false, true⟩
  pure (⟨s, some p⟩, h)

/-- `Tensor(const TensorShape&)`, tensor.cpp:29-33: `new DType[chunk(0)]{0}`. -/
def ofShape [Zero R] (h : Heap R) (shape : TensorShape) : Res (Tensor × Heap R) := do
  let s ← copyShape shape
  let n ← s.chunkAt 0
  let (p, h) := h.alloc ⟨List.replicate n.toNat (some 0), true, true⟩
  pure (⟨s, some p⟩, h)

/-- `Tensor(const vector<int>&)`, tensor.cpp:26-27. -/
def ofDims [Zero R] (h : Heap R) (dims : List Int) : Res (Tensor × Heap R) := do
  let s ← mkShape dims
  ofShape h s

/-- Copy constructor, tensor.cpp:35-40. -/
def copyCtor [Zero R] (h : Heap R) (src : Tensor) : Res (Tensor × Heap R) := do
  let s ← copyShape src.shape
  let n ← s.chunkAt 0
  let (p, h) := h.alloc ⟨List.replicate n.toNat (some 0), true, true⟩
  let h ← copyLoop (some p) src.data n.toNat 0 h
  pure (⟨s, some p⟩, h)

/-- The first half of copy assignment, tensor.cpp:49-56: keep, replace or create the buffer of `*this`.
The replacing `new DType[n]` (line 52) leaves the elements indeterminate. -/
def assignBuffer [Zero R] (h : Heap R) (dst src : Tensor) : Res (Ptr × Heap R) := do
  let c ← dst.chunkAt 0
  match dst.data with
  | some p =>
    let c' ← src.chunkAt 0
    if c < c' then do
      let h ← h.deleteArr (some p)
      let (q, h) := h.alloc ⟨List.replicate c'.toNat none, true, true⟩
      pure (some q, h)
    else pure (some p, h)
  | none =>
    let (q, h) := h.alloc ⟨List.replicate c.toNat (some 0), true, true⟩
    pure (some q, h)

/-- `operator=(const Tensor&)`, tensor.cpp:47-60, for `*this` = `dst` and a different object `src`. The loop bound on
line 57 is the chunk of the *old* shape of `*this`. Gives the new value of `*this`. -/
def copyAssign [Zero R] (h : Heap R) (dst src : Tensor) : Res (Tensor × Heap R) := do
  let (p, h) ← assignBuffer h dst src
  let c ← dst.chunkAt 0
  let h ← copyLoop p src.data c.toNat 0 h
  let s ← assignShape dst.shape src.shape
  pure (⟨s, p⟩, h)

/-- `operator=(const Tensor&)`, tensor.cpp:47-60, when both sides are the same object (`t = t`): after line 55
`tensor.data_` is the new buffer as well. -/
def selfAssign [Zero R] (h : Heap R) (t : Tensor) : Res (Tensor × Heap R) := do
  let (p, h) ← assignBuffer h t t
  let c ← t.chunkAt 0
  let h ← copyLoop p p c.toNat 0 h
  let s ← assignShape t.shape t.shape
  pure (⟨s, p⟩, h)

/-- Move constructor, tensor.cpp:42-45: the argument has a name, so `operator=(tensor)` is the *copy* assignment. -/
def moveCtor [Zero R] (h : Heap R) (src : Tensor) : Res (Tensor × Heap R) := do
  let s ← copyShape src.shape
  copyAssign h ⟨s, none⟩ src

/-- Move assignment, tensor.cpp:62-68, for two different objects: gives new values of `*this` and of the source. The heap is
not touched: the previous buffer of `*this` is not released. -/
def moveAssign (dst src : Tensor) : Res (Tensor × Tensor) := do
  let s ← assignShape dst.shape src.shape
  pure (⟨s, src.data⟩, ⟨src.shape, none⟩)

/-- Move assignment of an object to itself, tensor.cpp:62-68. -/
def selfMoveAssign (t : Tensor) : Res Tensor := do
  let s ← assignShape t.shape t.shape
  pure ⟨s, none⟩

/-- Destructor, tensor.cpp:21-24. -/
def destroy (h : Heap R) (t : Tensor) : Res (Heap R) :=
  match t.data with
  | none => .ok h
  | some p => h.deleteArr (some p)

/-- `Reshape(const TensorShape&)`, tensor.cpp:122-126. -/
def reshape (t : Tensor) (shape : TensorShape) : Res Tensor := do
  let c ← shape.chunkAt 0
  let c' ← t.chunkAt 0
  assertC (c = c')
  let s ← assignShape t.shape shape
  pure ⟨s, t.data⟩

/-- `Reshape(const std::vector<int>&)`, tensor.cpp:128-131. -/
def reshapeDims (t : Tensor) (dims : List Int) : Res Tensor := do
  let s ← mkShape dims
  reshape t s

/-- `Zeros(const TensorShape&)`, tensor.cpp:70-73. -/
def zeros [Zero R] (h : Heap R) (shape : TensorShape) : Res (Tensor × Heap R) := ofShape h shape

/-- `Zeros(const vector<int>&)`, tensor.cpp:75-78. -/
def zerosDims [Zero R] (h : Heap R) (dims : List Int) : Res (Tensor × Heap R) := do
  let s ← mkShape dims
  zeros h s

/-- `for (int i = 0; i < n; ++i) p[i] = f(i);` (tensor.cpp:83-85 and tensor.cpp:110-112), as recursion on the number of
iterations still to do. -/
def fillLoop (p : Ptr) (f : Nat → R) : (todo : Nat) → (i : Nat) → Heap R → Res (Heap R)
  | 0, _, h => .ok h
  | todo + 1, i, h => do
    let h' ← h.write p i (f i)
    fillLoop p f todo (i + 1) h'

/-- `Ones(const TensorShape&)`, tensor.cpp:80-87. -/
def ones [Zero R] [One R] (h : Heap R) (shape : TensorShape) : Res (Tensor × Heap R) := do
  let (out, h) ← ofShape h shape
  let n ← shape.chunkAt 0
  let h ← fillLoop out.data (fun _ => 1) n.toNat 0 h
  pure (out, h)

/-- `Ones(const vector<int>&)`, tensor.cpp:89-92. -/
def onesDims [Zero R] [One R] (h : Heap R) (dims : List Int) : Res (Tensor × Heap R) := do
  let s ← mkShape dims
  ones h s

/-- The loop of `Eyes`, tensor.cpp:98-100, with its `int` index arithmetic. -/
def eyesLoop [One R] (p : Ptr) (size : Int) : (todo : Nat) → (i : Nat) → Heap R → Res (Heap R)
  | 0, _, h => .ok h
  | todo + 1, i, h => do
    let a ← cint (i * size)
    let k ← cint (a + i)
    let h' ← h.write p k 1
    eyesLoop p size todo (i + 1) h'

/-- `Eyes(int)`, tensor.cpp:94-102. -/
def eyes [Zero R] [One R] (h : Heap R) (size : Int) : Res (Tensor × Heap R) := do
  let s ← mkShape [size, size]
  let (out, h) ← ofShape h s
  let h ← eyesLoop out.data size size.toNat 0 h
  pure (out, h)

/-- `Gaussian(const TensorShape&, mean, stddev)`, tensor.cpp:104-114. The generator is an arbitrary stream: `draws i` is the
value of the `i`-th call `dist(gen)`. -/
def gaussian [Zero R] (h : Heap R) (shape : TensorShape) (draws : Nat → R) : Res (Tensor × Heap R) := do
  let (out, h) ← ofShape h shape
  let n ← out.chunkAt 0
  let h ← fillLoop out.data draws n.toNat 0 h
  pure (out, h)

/-- `Gaussian(const vector<int>&, mean, stddev)`, tensor.cpp:116-120. -/
def gaussianDims [Zero R] (h : Heap R) (dims : List Int) (draws : Nat → R) : Res (Tensor × Heap R) := do
  let s ← mkShape dims
  gaussian h s draws

end Tensor

end Nnet.Tensor
