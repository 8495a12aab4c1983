import Verif.NN.Trainer
import Verif.NN.File
/-!
# Default-constructed objects

Models `OutputLayer()`, `InputLayer()`, `NeuralNet()` and the default constructors of the trainers. `matfunc` and `matfuncd` are plain function pointers (type.h:21-22), so
default construction leaves `cost` and `costd` indeterminate, and calling them is undefined behaviour. Merely copying an indeterminate pointer is undefined too in the letter of the
standard, and harmless in practice: the model lets it pass. The pointer to the network in a default-constructed trainer is null.
-/
namespace Nnet.NN
noncomputable section

/-- A call through an indeterminate `matfunc`. -/
def wildFunc : MatFunc := fun _ _ => .error (.ub .uninitRead)

/-- A call through an indeterminate `matfuncd`. -/
def wildFuncD : MatFuncD := fun _ _ _ => .error (.ub .uninitRead)

/-- `OutputLayer::OutputLayer()`, outputlayer.cpp:5. -/
def OutputLayer.default : OutputLayer := { Layer.default with cost := wildFunc, costd := wildFuncD, y := .empty }

/-- `NeuralNet::NeuralNet()`, neuralnet.cpp:11; the input layer is `InputLayer()`, inputlayer.cpp:5. -/
def Net.default : Net := { result := .empty, cost := wildFunc, costd := wildFuncD, input := Layer.default, hidden := [], output := OutputLayer.default }

/-- A trainer of class `T` whose pointer to the network may be null; the name in `rest` counts only if the pointer is not null. -/
structure Ptr (T : Type) where
  nnet : Option Nat
  rest : T

namespace Ptr

/-- `Trainer::Trainer()`, trainer.cpp:5; also `SGDTrainer::SGDTrainer()`, sgdtrainer.cpp:5. -/
def trainer : Ptr Trainer := ⟨none, Trainer.new 0⟩

/-- `MomentumTrainer::MomentumTrainer()`, momentumtrainer.cpp:5. -/
def momentum : Ptr MomentumTrainer := ⟨none, { Trainer.new 0 with momentum := 6 / 10, ograd := .empty, hgrads := [] }⟩

/-- `self = t` for a trainer `t` made for a network: `Trainer::operator=`, trainer.cpp:17-25, and `SGDTrainer::operator=`, sgdtrainer.cpp:15-18. -/
def assign (self : Ptr Trainer) (t : Ptr Trainer) : Ptr Trainer := ⟨t.nnet, Trainer.assign self.rest t.rest⟩

/-- `MomentumTrainer::operator=`, momentumtrainer.cpp:34-40. -/
def assignM (self : Ptr MomentumTrainer) (t : Ptr MomentumTrainer) : Ptr MomentumTrainer := ⟨t.nnet, MomentumTrainer.assign self.rest t.rest⟩

/-- A trainer made for the network it names. -/
def of (t : Trainer) : Ptr Trainer := ⟨some t.nnet, t⟩
/-- A trainer made for the network it names. -/
def ofM (t : MomentumTrainer) : Ptr MomentumTrainer := ⟨some t.nnet, t⟩

/-- `Trainer(const Trainer&)`, trainer.cpp:13-15. -/
def copyCtor (t : Ptr Trainer) : Ptr Trainer := ⟨t.nnet, t.rest.copyCtor⟩

/-- `SGDTrainer(const SGDTrainer&)`, sgdtrainer.cpp:12-13: `*trainer.nnet` dereferences the pointer. -/
def copyCtorSGD (t : Ptr Trainer) : Res (Ptr Trainer) :=
  match t.nnet with
  | none => .error (.ub .nullDeref)
  | some p => .ok ⟨some p, SGD.copyCtor { t.rest with nnet := p }⟩

/-- `MomentumTrainer(const MomentumTrainer&)`, momentumtrainer.cpp:30-32: `*trainer.nnet` dereferences the pointer. -/
def copyCtorM (t : Ptr MomentumTrainer) : Res (Ptr MomentumTrainer) :=
  match t.nnet with
  | none => .error (.ub .nullDeref)
  | some p => .ok ⟨some p, MomentumTrainer.copyCtor { t.rest with nnet := p }⟩

/-- `Trainer::feeddata(x, y)`, trainer.cpp:31-40: the pointer is dereferenced in line 34 or 37. -/
def feeddata (junk : Nat → Nat → ℝ) (w : World) (t : Ptr Trainer) (x y : Mat ℝ) : Res (World × Ptr Trainer) :=
  match t.nnet with
  | none => .error (.ub .nullDeref)
  | some p => do
    let (w, r) ← Trainer.feeddata junk w { t.rest with nnet := p } x y
    .ok (w, ⟨some p, r⟩)

/-- `SGDTrainer::feeddata(x, y)`, sgdtrainer.cpp:24-35: the pointer is dereferenced in line 27 if the learning rate decays now, and in line 31 if there is a row. -/
def feeddataSGD (junk : Nat → Nat → ℝ) (w : World) (t : Ptr Trainer) (x y : Mat ℝ) : Res (World × Ptr Trainer) :=
  match t.nnet with
  | none =>
    let r := t.rest.count
    if r.usedecay = true ∧ r.iters = r.step then .error (.ub .nullDeref)
    else if 0 < x.nr then .error (.ub .nullDeref)
    else .ok (w, ⟨none, r⟩)
  | some p => do
    let (w, r) ← SGD.feeddata junk w { t.rest with nnet := p } x y
    .ok (w, ⟨some p, r⟩)

/-- `MomentumTrainer::feeddata(x, y)`, momentumtrainer.cpp:58-78: the pointer is dereferenced in line 61 or 64. -/
def feeddataM (junk : Nat → Nat → ℝ) (w : World) (t : Ptr MomentumTrainer) (x y : Mat ℝ) : Res (World × Ptr MomentumTrainer) :=
  match t.nnet with
  | none => .error (.ub .nullDeref)
  | some p => do
    let (w, r) ← MomentumTrainer.feeddata junk w { t.rest with nnet := p } x y
    .ok (w, ⟨some p, r⟩)

/-- A `BatchTrainer` that may be default-constructed, batchtrainer.cpp:5: null pointer and indeterminate batch size. -/
structure Batch where
  nnet : Option Nat
  batchsize : Option Int
  rest : BatchTrainer

/-- `BatchTrainer::BatchTrainer()`, batchtrainer.cpp:5. -/
def Batch.default : Batch := ⟨none, none, BatchTrainer.new 0 0⟩

/-- A trainer made for the network it names. -/
def Batch.of (t : BatchTrainer) : Batch := ⟨some t.nnet, some t.batchsize, t⟩

/-- `BatchTrainer::operator=`, batchtrainer.cpp:18-22. -/
def Batch.assign (self t : Batch) : Batch := ⟨t.nnet, t.batchsize, BatchTrainer.assign self.rest t.rest⟩

/-- `BatchTrainer::feeddata(x, y)`, batchtrainer.cpp:28-50: the batch size is read in line 34; with a null pointer, line 40 dereferences it if there is a row (lines 34-39 may throw first), and
line 48 if the learning rate decays now. -/
def Batch.feeddata (junk : Nat → Nat → ℝ) (w : World) (t : Batch) (x y : Mat ℝ) : Res (World × Batch) :=
  match t.batchsize with
  | none => .error (.ub .uninitRead)
  | some b =>
    match t.nnet with
    | none => do
      let trainx ← BatchTrainer.extend x b
      let _ ← BatchTrainer.extend y b
      if 0 < x.nr then do
        let _ ← trainx.rows 0 (b - 1)
        .error (.ub .nullDeref)
      else if t.rest.usedecay = true ∧ t.rest.iters = t.rest.step then .error (.ub .nullDeref)
      else .ok (w, { t with rest := { t.rest with x := x, y := y } })
    | some p => do
      let (w, r) ← BatchTrainer.feeddata junk w { t.rest with nnet := p, batchsize := b } x y
      .ok (w, ⟨some p, some b, r⟩)

end Ptr
end
end Nnet.NN
