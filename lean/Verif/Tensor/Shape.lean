import Verif.Core
/-!
# Model of `nn::tensor::TensorShape` (src/tensor/tensor_shape.h, src/tensor/tensor_shape.cpp)
-/
namespace Nnet.Tensor

/-- src/tensor/tensor_shape.h:9-21, data members `shape_`, `chunk_`. -/
structure TensorShape where
  shape : List Int
  chunk : List Int
  deriving DecidableEq, Repr

namespace TensorShape

/-- `TensorShape() = default`, tensor_shape.h:11. -/
def default : TensorShape := ⟨[], []⟩

/-- `int shape(int i) const { return shape_[i]; }`, tensor_shape.h:15. -/
def shapeAt (s : TensorShape) (i : Int) : Res Int := vecAt s.shape i

/-- `int chunk(int i) const { return chunk_[i]; }`, tensor_shape.h:16. -/
def chunkAt (s : TensorShape) (i : Int) : Res Int := vecAt s.chunk i

/-- `int size() const { return shape_.size(); }`, tensor_shape.h:17. Simplification: the conversion from
`size_t` to `int` is taken to be exact (fewer than 2^31 dimensions). -/
def size (s : TensorShape) : Int := s.shape.length

end TensorShape

/-- The assertion loop tensor_shape.cpp:12-18: the first dimension must be `>= 0`, the others `> 0`. -/
def checkDims : List Int → Res Unit
  | [] => .ok ()
  | d :: ds => do
    assertC (d ≥ 0)
    ds.forM (fun d' => assertC (d' > 0))

/-- The chunk loop tensor_shape.cpp:20-25, which fills `chunk_` from the last index down to 0:
`chunk_[k-1] = shape[k-1]`, then `chunk_[i] = shape[i] * chunk_[i+1]; assert(chunk_[i] >= 0)`. -/
def suffixChunks : List Int → Res (List Int)
  | [] => .ok []
  | [d] => .ok [d]
  | d :: ds => do
    let cs ← suffixChunks ds
    let next ← vecAt cs 0
    let c ← cint (d * next)
    assertC (c ≥ 0)
    pure (c :: cs)

/-- `TensorShape::TensorShape(const vector<int>&)`, tensor_shape.cpp:9-27; the last line of the constructor
replaces a zero `chunk_[0]` by 1. -/
def mkShape (dims : List Int) : Res TensorShape := do
  assertC (dims.length > 0)
  checkDims dims
  let ch ← suffixChunks dims
  let c0 ← vecAt ch 0
  pure ⟨dims, if c0 = 0 then ch.set 0 1 else ch⟩

/-- Copy constructor, tensor_shape.cpp:29-30: delegates to the vector constructor. -/
def copyShape (s : TensorShape) : Res TensorShape := mkShape s.shape

/-- `operator=`, tensor_shape.cpp:32-37 (`_old` is the overwritten value of `*this`). -/
def assignShape (_old s : TensorShape) : Res TensorShape := do
  let temp ← copyShape s
  pure ⟨temp.shape, temp.chunk⟩

end Nnet.Tensor
