import Verif.NN.Trainer
/-!
# What a call that throws leaves behind

The other model files say what a call returns, or that it throws. A caller can catch the exception and go on with the objects, so here the same functions of src/layer/layer.cpp, inputlayer.cpp,
outputlayer.cpp, src/neuralnet.cpp and src/trainer are modelled once more, statement by statement, with the state the objects are left in when a statement throws.

There are two reasons to throw. Armadillo's size checks, as in the rest of the model: they come before anything is written, so the target of the assignment is as it was. And exhausted memory
(`std::bad_alloc`): any statement that computes a matrix may fail; when an assignment fails in this way, its target is as it was or, since Armadillo releases the old memory first when the size changes,
empty. Exceptions: `W = W - lrate * grad` writes a matrix of the size of `W` in place, so a failure leaves `W` as it was (this assumes the size check passes before the memory is touched).

Simplification: the calls of hidden layers other than plain dense ones are single steps here, which leave the layer as it was when they fail; the theorems are about networks of dense layers.
-/
namespace Nnet.NN
noncomputable section

/-- Memory is exhausted after `left` more matrix computations; `clears` says whether the assignment that fails leaves its target empty. -/
structure Fault where
  left : Nat
  clears : Bool

/-- A piece of a program that works on a state of type `σ`: started with a limit on the memory (`none`: enough) it ends with a result or an exception, and in both cases with a state. -/
def X (σ α : Type) : Type := Option Fault → σ → Res α × Option Fault × σ

namespace X
variable {σ τ α β : Type}

/-- No statement. -/
def ret (a : α) : X σ α := fun b s => (.ok a, b, s)

/-- `m` and then, unless it throws, `f`. -/
def bind (m : X σ α) (f : α → X σ β) : X σ β := fun b s =>
  match m b s with
  | (.ok a, b', s') => f a b' s'
  | (.error e, b', s') => (.error e, b', s')

instance : Monad (X σ) where
  pure := ret
  bind := bind

/-- One matrix computation when there is memory for it. -/
def step (r : σ → Res α) (done : α → σ → σ) : X σ α := fun b s =>
  match r s with
  | .ok a => (.ok a, b.map (fun t : Fault => ⟨t.left - 1, t.clears⟩), done a s)
  | .error e => (.error e, b, s)

/-- One matrix computation: `r` is its value, `done` what is then written, `broken` what a lack of memory may leave behind. -/
def op (r : σ → Res α) (done : α → σ → σ) (broken : σ → σ) : X σ α := fun b s =>
  match b with
  | some ⟨0, c⟩ => (.error .throw, some ⟨0, c⟩, if c = true then broken s else s)
  | b => step r done b s

/-- `member = expression;` -/
def assign (set : Mat ℝ → σ → σ) (e : σ → Res (Mat ℝ)) : X σ Unit := do
  let _ ← op e set (set .empty)
  ret ()

/-- A temporary value. -/
def eval (e : σ → Res α) : X σ α := op e (fun _ s => s) id

/-- A statement that computes no matrix and cannot throw. -/
def modify (f : σ → σ) : X σ Unit := fun b s => (.ok (), b, f s)

/-- Reading members, without copying matrices. -/
def get (f : σ → α) : X σ α := fun b s => (.ok (f s), b, s)

/-- A call for a part of the state. -/
def on (get : σ → τ) (put : τ → σ → σ) (m : X τ α) : X σ α := fun b s =>
  ((m b (get s)).1, (m b (get s)).2.1, put (m b (get s)).2.2 s)

/-- `for (i = 0; i < n; ++i) body`. -/
def loop : (n : Nat) → (Nat → X σ Unit) → X σ Unit
  | 0, _ => ret ()
  | n + 1, body => do
    loop n body
    body n

end X

namespace Layer

/-- `Layer::forwardprop(pa)`, layer.cpp:76-82. -/
def forwardpropX (pa : Mat ℝ) : X Layer (Mat ℝ) := do
  X.assign (fun m L => { L with pa := m }) (fun _ => addcol pa)
  X.assign (fun m L => { L with z := m }) (fun L => L.pa.mul L.W)
  X.assign (fun m L => { L with a := m }) (fun L => .ok (funcop L.z L.actfunc.act))
  X.eval (fun L => .ok L.a)

/-- `Layer::backprop(d)`, layer.cpp:84-93. -/
def backpropX (d : Mat ℝ) : X Layer (Mat ℝ) := do
  X.assign (fun m L => { L with delta := m }) (fun L => d.schur (funcop L.z L.actfunc.actd))
  X.assign (fun m L => { L with grad := m }) (fun L => L.pa.tr.mul L.delta)
  X.assign (fun m L => { L with grad := m }) (fun L => L.grad.add (L.W.smul L.lambda))
  let p ← X.eval (fun L => L.delta.mul L.W.tr)
  X.eval (fun L => p.submat 0 1 ((L.delta.nr : Int) - 1) ((L.W.nr : Int) - 1))

/-- `Layer::update()`, layer.cpp:95-97. -/
def updateX : X Layer Unit := do
  let _ ← X.op (fun L => L.W.sub (L.grad.smul L.lrate)) (fun m L => { L with W := m }) id
  X.ret ()

/-- `Layer::update(grad)`, layer.cpp:99-101: `grad` is passed by value. -/
def updateWithX (grad : Mat ℝ) : X Layer Unit := do
  let g ← X.eval (fun _ => .ok grad)
  let _ ← X.op (fun L => L.W.sub (g.smul L.lrate)) (fun m L => { L with W := m }) id
  X.ret ()

end Layer

/-- `InputLayer::forwardprop(input)`, inputlayer.cpp:24-28. -/
def InputLayer.forwardpropX (input : Mat ℝ) : X Layer (Mat ℝ) := do
  X.assign (fun m L => { L with z := m }) (fun _ => .ok input)
  X.assign (fun m L => { L with a := m }) (fun _ => .ok input)
  X.eval (fun L => .ok L.a)

/-- The members an `OutputLayer` inherits from `Layer`. -/
def OutputLayer.base {α : Type} (m : X Layer α) : X OutputLayer α := X.on OutputLayer.toLayer (fun L o => { o with toLayer := L }) m

/-- `OutputLayer::backprop(label)`, outputlayer.cpp:45-55. -/
def OutputLayer.backpropX (label : Mat ℝ) : X OutputLayer (Mat ℝ) := do
  X.assign (fun m o => { o with y := m }) (fun _ => .ok label)
  X.assign (fun m o => { o with delta := m }) (fun o => o.costd o.y o.a o.z)
  X.assign (fun m o => { o with grad := m }) (fun o => o.pa.tr.mul o.delta)
  X.assign (fun m o => { o with grad := m }) (fun o => o.grad.add (o.W.smul o.lambda))
  let newdelta ← X.eval (fun o => o.delta.mul o.W.tr)
  X.eval (fun _ => newdelta.shedCol0)

namespace HLayer

/-- A call for a plain dense layer. -/
def dense {α : Type} (m : X Layer α) : X HLayer α := X.on HLayer.base (fun L h => { h with base := L }) m

/-- A call for another layer, in one step. -/
def other {α : Type} (f : HLayer → Res (α × HLayer)) : X HLayer α := do
  let r ← X.op f (fun r _ => r.2) id
  X.ret r.1

/-- Virtual `forwardprop`, layer.h:37. -/
def forwardpropX (junk : Nat → Nat → ℝ) (pa : Mat ℝ) : X HLayer (Mat ℝ) := do
  let k ← X.get HLayer.kind
  match k with
  | .dense => dense (Layer.forwardpropX pa)
  | _ => other (fun h => h.forwardprop junk pa)

/-- Virtual `backprop`, layer.h:38. -/
def backpropX (junk : Nat → Nat → ℝ) (d : Mat ℝ) : X HLayer (Mat ℝ) := do
  let k ← X.get HLayer.kind
  match k with
  | .dense => dense (Layer.backpropX d)
  | _ => other (fun h => h.backprop junk d)

/-- Virtual `update()`, layer.h:39. -/
def updateX : X HLayer Unit := do
  let k ← X.get HLayer.kind
  match k with
  | .dense => dense Layer.updateX
  | _ => other (fun h => do let h ← h.update; .ok ((), h))

/-- Virtual `update(grad)`, layer.h:40. -/
def updateWithX (g : Mat ℝ) : X HLayer Unit := do
  let k ← X.get HLayer.kind
  match k with
  | .dense => dense (Layer.updateWithX g)
  | _ => other (fun h => do let h ← h.updateWith g; .ok ((), h))

end HLayer

namespace Net

/-- `hidden[i]->...`, where `p` is the pointer. -/
def onHidden {α : Type} (p : Nat) (m : X HLayer α) : X (Store × Net) α := X.on (fun st => st.1 p) (fun h st => (st.1.put p h, st.2)) m

/-- `output....`. -/
def onOutput {α : Type} (m : X OutputLayer α) : X (Store × Net) α := X.on (fun st => st.2.output) (fun o st => (st.1, { st.2 with output := o })) m

/-- `input....`. -/
def onInput {α : Type} (m : X Layer α) : X (Store × Net) α := X.on (fun st => st.2.input) (fun L st => (st.1, { st.2 with input := L })) m

/-- Loop of neuralnet.cpp:35-38. -/
def hiddenForwardX (junk : Nat → Nat → ℝ) : List Nat → Mat ℝ → X (Store × Net) (Mat ℝ)
  | [], current => X.ret current
  | p :: ps, current => do
    let n ← onHidden p (HLayer.forwardpropX junk current)
    let n ← X.eval (fun _ => .ok n)
    hiddenForwardX junk ps n

/-- `NeuralNet::forwardprop(x)`, neuralnet.cpp:33-41. -/
def forwardpropX (junk : Nat → Nat → ℝ) (x : Mat ℝ) : X (Store × Net) (Mat ℝ) := do
  let current ← onInput (InputLayer.forwardpropX x)
  let hidden ← X.get (fun st => st.2.hidden)
  let current ← hiddenForwardX junk hidden current
  let r ← onOutput (OutputLayer.base (Layer.forwardpropX current))
  X.assign (fun m st => (st.1, { st.2 with result := m })) (fun _ => .ok r)
  X.eval (fun st => .ok st.2.result)

/-- Loop of neuralnet.cpp:45-48 over the hidden layers from last to first. -/
def hiddenBackwardX (junk : Nat → Nat → ℝ) : List Nat → Mat ℝ → X (Store × Net) Unit
  | [], _ => X.ret ()
  | p :: ps, currentdelta => do
    let d ← onHidden p (HLayer.backpropX junk currentdelta)
    let d ← X.eval (fun _ => .ok d)
    hiddenBackwardX junk ps d

/-- `NeuralNet::backprop(y)`, neuralnet.cpp:43-49. -/
def backpropX (junk : Nat → Nat → ℝ) (y : Mat ℝ) : X (Store × Net) Unit := do
  let d ← onOutput (OutputLayer.backpropX y)
  let hidden ← X.get (fun st => st.2.hidden)
  hiddenBackwardX junk hidden.reverse d

/-- Loop of neuralnet.cpp:53-55. -/
def hiddenUpdateX : List Nat → X (Store × Net) Unit
  | [] => X.ret ()
  | p :: ps => do
    onHidden p HLayer.updateX
    hiddenUpdateX ps

/-- `NeuralNet::update()`, neuralnet.cpp:51-56. -/
def updateX : X (Store × Net) Unit := do
  onOutput (OutputLayer.base Layer.updateX)
  let hidden ← X.get (fun st => st.2.hidden)
  hiddenUpdateX hidden

/-- Loop of neuralnet.cpp:60-62. -/
def hiddenUpdateWithX : List Nat → List (Mat ℝ) → X (Store × Net) Unit
  | [], _ => X.ret ()
  | _ :: _, [] => X.eval (fun _ => .error (.ub .vectorIndex))
  | p :: ps, g :: gs => do
    onHidden p (HLayer.updateWithX g)
    hiddenUpdateWithX ps gs

/-- `NeuralNet::update(ograd, hgrad)`, neuralnet.cpp:58-63. -/
def updateWithX (ograd : Mat ℝ) (hgrad : List (Mat ℝ)) : X (Store × Net) Unit := do
  onOutput (OutputLayer.base (Layer.updateWithX ograd))
  let hidden ← X.get (fun st => st.2.hidden)
  hiddenUpdateWithX hidden hgrad

/-- `NeuralNet::predict(sample)`, neuralnet.cpp:65-70. -/
def predictX (junk : Nat → Nat → ℝ) (sample : Mat ℝ) : X (Store × Net) (Mat ℝ) := do
  let r ← forwardpropX junk sample
  X.assign (fun m st => (st.1, { st.2 with result := m })) (fun _ => .ok r)
  X.eval (fun st => st.2.output.argmax)

/-- `nnet->forwardprop(x); nnet->backprop(y); nnet->update();` -/
def trainOnX (junk : Nat → Nat → ℝ) (x y : Mat ℝ) : X (Store × Net) Unit := do
  let _ ← forwardpropX junk x
  backpropX junk y
  updateX

end Net

/-- `nnet->...` for a trainer whose pointer is read by `nnet`. -/
def onNet {τ α : Type} (nnet : τ → Nat) (m : X (Store × Net) α) : X (World × τ) α :=
  X.on (fun st => (st.1.store, st.1.nets (nnet st.2))) (fun r st => (st.1.put (nnet st.2) r.1 r.2, st.2)) m

namespace Trainer

/-- `Trainer::feeddata(x, y)`, trainer.cpp:31-40. -/
def feeddataX (junk : Nat → Nat → ℝ) (x y : Mat ℝ) : X (World × Trainer) Unit := do
  X.modify (fun st => (st.1, st.2.count))
  X.modify (fun st => let r := st.2.decay st.1.store (st.1.nets st.2.nnet); (st.1.put st.2.nnet r.1 r.2, st.2))
  onNet Trainer.nnet (Net.trainOnX junk x y)

end Trainer

/-- `SGDTrainer::feeddata(x, y)`, sgdtrainer.cpp:24-35. -/
def SGD.feeddataX (junk : Nat → Nat → ℝ) (x y : Mat ℝ) : X (World × Trainer) Unit := do
  X.modify (fun st => (st.1, st.2.count))
  X.modify (fun st => let r := st.2.decay st.1.store (st.1.nets st.2.nnet); (st.1.put st.2.nnet r.1 r.2, st.2))
  onNet Trainer.nnet (X.loop x.nr (fun i => do
    let xi ← X.eval (fun _ => x.row i)
    let _ ← Net.forwardpropX junk xi
    let yi ← X.eval (fun _ => y.row i)
    Net.backpropX junk yi
    Net.updateX))

namespace BatchTrainer

/-- `BatchTrainer::feeddata(x, y)`, batchtrainer.cpp:28-50. -/
def feeddataX (junk : Nat → Nat → ℝ) (x y : Mat ℝ) : X (World × BatchTrainer) Unit := do
  X.assign (fun m st => (st.1, { st.2 with x := m })) (fun _ => .ok x)
  X.assign (fun m st => (st.1, { st.2 with y := m })) (fun _ => .ok y)
  let bs ← X.get (fun st => st.2.batchsize)
  let trainx ← X.eval (fun _ => extend x bs)
  let trainy ← X.eval (fun _ => extend y bs)
  X.loop ((x.nr + bs.toNat - 1) / bs.toNat) (fun t => do
    let xi ← X.eval (fun _ => trainx.rows ((t * bs.toNat : Nat) : Int) (((t * bs.toNat : Nat) : Int) + bs.toNat - 1))
    let _ ← onNet (fun t => t.nnet) (Net.forwardpropX junk xi)
    let yi ← X.eval (fun _ => trainy.rows ((t * bs.toNat : Nat) : Int) (((t * bs.toNat : Nat) : Int) + bs.toNat - 1))
    onNet (fun t => t.nnet) (Net.backpropX junk yi)
    onNet (fun t => t.nnet) Net.updateX
    X.modify (fun st => (st.1, { st.2 with toTrainer := st.2.toTrainer.count })))
  X.modify (fun st => let r := st.2.toTrainer.decay st.1.store (st.1.nets st.2.nnet); (st.1.put st.2.nnet r.1 r.2, st.2))

end BatchTrainer

namespace MomentumTrainer

/-- Loop of momentumtrainer.cpp:67-75 from index `i` on, `n` indices to go. -/
def mixAllX : (i n : Nat) → X (World × MomentumTrainer) Unit
  | _, 0 => X.ret ()
  | i, n + 1 => do
    let h ← X.eval (fun st => (st.1.nets st.2.nnet).gethidden st.1.store i)
    let old ← X.eval (fun st => vecAt st.2.hgrads i)
    X.assign (fun m st => (st.1, { st.2 with hgrads := st.2.hgrads.set i m })) (fun st => mix st.2.momentum st.2.iters old h.grad)
    mixAllX (i + 1) n

/-- `MomentumTrainer::feeddata(x, y)`, momentumtrainer.cpp:58-78. -/
def feeddataX (junk : Nat → Nat → ℝ) (x y : Mat ℝ) : X (World × MomentumTrainer) Unit := do
  X.modify (fun st => (st.1, { st.2 with toTrainer := st.2.toTrainer.count }))
  X.modify (fun st => let r := st.2.toTrainer.decay st.1.store (st.1.nets st.2.nnet); (st.1.put st.2.nnet r.1 r.2, st.2))
  let _ ← onNet (fun t => t.nnet) (Net.forwardpropX junk x)
  onNet (fun t => t.nnet) (Net.backpropX junk y)
  X.assign (fun m st => (st.1, { st.2 with ograd := m })) (fun st =>
    (st.2.ograd.smul st.2.momentum).add ((st.1.nets st.2.nnet).output.grad.smul (1 - st.2.momentum)))
  let n ← X.get (fun st => st.2.hgrads.length)
  mixAllX 0 n
  let ograd ← X.get (fun st => st.2.ograd)
  let hgrads ← X.get (fun st => st.2.hgrads)
  onNet (fun t => t.nnet) (Net.updateWithX ograd hgrads)

end MomentumTrainer
end
end Nnet.NN
