import Verif.NN.Net
/-!
# Copying layers of the derived classes

Models the copy constructors and assignment operators of src/layer/{normlayer,softmaxlayer,maxpoollayer,meanpoollayer}.cpp (those of `Conv2DLayer` are in Special.lean, those of `Layer` in Layer.lean).
-/
namespace Nnet.NN
noncomputable section

/-- What the memory of a new object contains in the members that its constructor leaves alone. -/
structure LayerMem where
  normval : ℝ
  conv : Conv

/-- The copy constructor of the class of `h`. Layer: layer.cpp:11-17. NormLayer, normlayer.cpp:10: `normval` is not initialised. SoftmaxLayer, softmaxlayer.cpp:7: `p` is empty. Conv2DLayer, conv2dlayer.cpp:22-26.
MaxPoolLayer, maxpoollayer.cpp:10-13. MeanPoolLayer, meanpoollayer.cpp:10-11. -/
def HLayer.copyCtor (dist : Draws) (junk : Nat → Nat → ℝ) (mem : LayerMem) (h : HLayer) : Res HLayer :=
  match h.kind with
  | .dense => .ok ⟨h.base.copy, .dense⟩
  | .norm _ => .ok ⟨h.base.copy, .norm mem.normval⟩
  | .softmax _ => .ok ⟨h.base.copy, .softmax .empty⟩
  | .conv c => do
    let (L, c) ← Conv.copyCtor dist junk mem.conv h.base c
    .ok ⟨L, .conv c⟩
  | .maxpool c ix => do
    let (L, c) ← Conv.copyCtor dist junk mem.conv h.base c
    .ok ⟨L, .maxpool c ix⟩
  | .meanpool c => do
    let (L, c) ← Conv.copyCtor dist junk mem.conv h.base c
    .ok ⟨L, .meanpool c⟩

/-- `self = h` for two objects of the same class. Layer: layer.cpp:38-51. NormLayer, normlayer.cpp:12-16. SoftmaxLayer, softmaxlayer.cpp:9-13. Conv2DLayer, conv2dlayer.cpp:28-38: the members of `Layer` are not
assigned. MaxPoolLayer, maxpoollayer.cpp:15-19. MeanPoolLayer, meanpoollayer.cpp:13-16. Objects of different classes cannot be assigned: `none`. -/
def HLayer.assign (self h : HLayer) : Option HLayer :=
  match self.kind, h.kind with
  | .dense, .dense => some ⟨h.base.copy, .dense⟩
  | .norm _, .norm v => some ⟨h.base.copy, .norm v⟩
  | .softmax _, .softmax p => some ⟨h.base.copy, .softmax p⟩
  | .conv c, .conv d => some ⟨self.base, .conv (Conv.assign c d)⟩
  | .maxpool c _, .maxpool d ix => some ⟨self.base, .maxpool (Conv.assign c d) ix⟩
  | .meanpool c, .meanpool d => some ⟨self.base, .meanpool (Conv.assign c d)⟩
  | _, _ => none

end
end Nnet.NN
