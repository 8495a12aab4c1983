import Verif.NN.Net
/-!
# Trainers (src/trainer)

Models trainer.{h,cpp}, sgdtrainer.{h,cpp}, batchtrainer.{h,cpp} and momentumtrainer.{h,cpp}. A trainer holds a pointer to a network: here the
name of a network in a `World`. `iters` is an `unsigned long` (64 bits). Default-constructed trainers, whose pointer is null, are in Default.lean.
Row counts and batch sizes are assumed to be small enough for `uint32_t` and `int`.
-/
namespace Nnet.NN
noncomputable section

/-- The networks of a program and the layers their pointers lead to. -/
structure World where
  nets : Nat → Net
  store : Store

/-- State of the world after the network named `p` changed. -/
def World.put (w : World) (p : Nat) (s : Store) (n : Net) : World := ⟨fun q => if q = p then n else w.nets q, s⟩

/-- `class Trainer`, trainer.h:22-26. -/
@[ext] structure Trainer where
  nnet : Nat
  iters : Nat
  step : Nat
  usedecay : Bool
  k : ℝ
  r0 : ℝ

/-- `nnet->forwardprop(x); nnet->backprop(y); nnet->update();` -/
def Net.trainOn (junk : Nat → Nat → ℝ) (s : Store) (n : Net) (x y : Mat ℝ) : Res (Store × Net) := do
  let (_, s, n) ← n.forwardprop junk s x
  let (s, n) ← n.backprop junk s y
  n.update s

namespace Trainer

/-- `Trainer(nnet)`, trainer.cpp:7-8. -/
def new (nnet : Nat) : Trainer := { nnet, iters := 0, step := 0, usedecay := false, k := 0, r0 := 0 }

/-- `Trainer(nnet, r0, k, step)`, trainer.cpp:10-11. -/
def newDecay (nnet : Nat) (r0 k : ℝ) (step : Nat) : Trainer := { nnet, iters := 0, step, usedecay := true, k, r0 }

/-- `Trainer(const Trainer&)`, trainer.cpp:13-15. -/
def copyCtor (t : Trainer) : Trainer :=
  { nnet := t.nnet, iters := t.iters, step := t.step, usedecay := t.usedecay, k := t.k, r0 := t.r0 }

/-- `Trainer::operator=`, trainer.cpp:17-25. -/
def assign (_self t : Trainer) : Trainer :=
  { nnet := t.nnet, iters := t.iters, step := t.step, usedecay := t.usedecay, k := t.k, r0 := t.r0 }

/-- `iters ++`. -/
def count (t : Trainer) : Trainer := { t with iters := (t.iters + 1) % 2 ^ 64 }

/-- `if (usedecay && iters == step) nnet->setlrate(r0 * exp(-k*iters))`: trainer.cpp:33-35, sgdtrainer.cpp:26-28,
batchtrainer.cpp:47-49, momentumtrainer.cpp:60-62. -/
def decay (t : Trainer) (s : Store) (n : Net) : Store × Net :=
  if t.usedecay = true ∧ t.iters = t.step then n.setlrate s (t.r0 * Real.exp (-t.k * t.iters)) else (s, n)

/-- `Trainer::feeddata(x, y)`, trainer.cpp:31-40. -/
def feeddata (junk : Nat → Nat → ℝ) (w : World) (t : Trainer) (x y : Mat ℝ) : Res (World × Trainer) := do
  let t := t.count
  let (s, n) := t.decay w.store (w.nets t.nnet)
  let (s, n) ← n.trainOn junk s x y
  .ok (w.put t.nnet s n, t)

/-- `Trainer::feeddata(x, y, ccost)`, trainer.cpp:42-50. -/
def feedcost (junk : Nat → Nat → ℝ) (w : World) (t : Trainer) (x y : Mat ℝ) (ccost : Bool) : Res (ℝ × World × Trainer) := do
  let (w, t) ← t.feeddata junk w x y
  let cost ← (if ccost then (w.nets t.nnet).computecost (w.nets t.nnet).getresult y else .ok 0 : Res ℝ)
  .ok (cost, w, t)

end Trainer

/-! ## src/trainer/sgdtrainer.cpp -/
namespace SGD

/-- `SGDTrainer(const SGDTrainer&)`, sgdtrainer.cpp:12-13: calls the decay constructor. -/
def copyCtor (t : Trainer) : Trainer := Trainer.newDecay t.nnet t.r0 t.k t.step

/-- `SGDTrainer::operator=`, sgdtrainer.cpp:15-18. -/
def assign (self t : Trainer) : Trainer := Trainer.assign self t

/-- Loop of sgdtrainer.cpp:30-34. -/
def trainRows (junk : Nat → Nat → ℝ) (x y : Mat ℝ) (s : Store) (n : Net) : Res (Store × Net) :=
  loop x.nr (fun i (st : Store × Net) => do
    let xi ← x.row i
    let (_, s, n) ← st.2.forwardprop junk st.1 xi
    let yi ← y.row i
    let (s, n) ← n.backprop junk s yi
    n.update s) (s, n)

/-- `SGDTrainer::feeddata(x, y)`, sgdtrainer.cpp:24-35. -/
def feeddata (junk : Nat → Nat → ℝ) (w : World) (t : Trainer) (x y : Mat ℝ) : Res (World × Trainer) := do
  let t := t.count
  let (s, n) := t.decay w.store (w.nets t.nnet)
  let (s, n) ← trainRows junk x y s n
  .ok (w.put t.nnet s n, t)

/-- Loop of sgdtrainer.cpp:41-46 when `ccost` holds: state `(cost, store, network)`. -/
def costRows (junk : Nat → Nat → ℝ) (x y : Mat ℝ) (s : Store) (n : Net) : Res (ℝ × Store × Net) :=
  loop x.nr (fun i (st : ℝ × Store × Net) => do
    let xi ← x.row i
    let (_, s, n) ← st.2.2.predict junk st.2.1 xi
    let yi ← y.row i
    let c ← n.computecost n.getresult yi
    .ok (st.1 + c, s, n)) (0, s, n)

/-- `SGDTrainer::feeddata(x, y, ccost)`, sgdtrainer.cpp:37-48. -/
def feedcost (junk : Nat → Nat → ℝ) (w : World) (t : Trainer) (x y : Mat ℝ) (ccost : Bool) : Res (ℝ × World × Trainer) := do
  let (w, t) ← feeddata junk w t x y
  if ccost then do
    let (c, s, n) ← costRows junk x y w.store (w.nets t.nnet)
    .ok (c, w.put t.nnet s n, t)
  else .ok (0, w, t)

end SGD

/-! ## src/trainer/batchtrainer.cpp -/

/-- `class BatchTrainer`, batchtrainer.h:20-22. -/
@[ext] structure BatchTrainer extends Trainer where
  x : Mat ℝ
  y : Mat ℝ
  batchsize : Int

namespace BatchTrainer

/-- `BatchTrainer(nnet, batchsize)`, batchtrainer.cpp:7-8. -/
def new (nnet : Nat) (batchsize : Int) : BatchTrainer := { Trainer.new nnet with x := .empty, y := .empty, batchsize }

/-- `BatchTrainer(nnet, batchsize, r0, k, step)`, batchtrainer.cpp:10-12. -/
def newDecay (nnet : Nat) (batchsize : Int) (r0 k : ℝ) (step : Nat) : BatchTrainer :=
  { Trainer.newDecay nnet r0 k step with x := .empty, y := .empty, batchsize }

/-- `BatchTrainer(const BatchTrainer&)`, batchtrainer.cpp:14-16. -/
def copyCtor (t : BatchTrainer) : BatchTrainer :=
  { Trainer.newDecay t.nnet t.r0 t.k t.step with x := .empty, y := .empty, batchsize := t.batchsize }

/-- `self = t`: `BatchTrainer::operator=`, batchtrainer.cpp:18-22. -/
def assign (self t : BatchTrainer) : BatchTrainer :=
  { Trainer.assign self.toTrainer t.toTrainer with x := self.x, y := self.y, batchsize := t.batchsize }

/-- `trainx` (and `trainy`) of batchtrainer.cpp:32-35. -/
def extend (m : Mat ℝ) (batchsize : Int) : Res (Mat ℝ) := do
  let head ← m.submat 0 0 (batchsize - 2) ((m.nc : Int) - 1)
  m.insertRows m.nr head

/-- Loop of batchtrainer.cpp:37-45 over the start rows `0, b, 2b, ...` below `x.n_rows`. State: iteration counter, store, network. The loop
is reached only with `batchsize ≥ 2`. -/
def trainBatches (junk : Nat → Nat → ℝ) (nr : Nat) (trainx trainy : Mat ℝ) (b : Nat) (iters : Nat) (s : Store) (n : Net) :
    Res (Nat × Store × Net) :=
  loop ((nr + b - 1) / b) (fun t (st : Nat × Store × Net) => do
    let start : Int := (t * b : Nat)
    let xi ← trainx.rows start (start + b - 1)
    let (_, s, n) ← st.2.2.forwardprop junk st.2.1 xi
    let yi ← trainy.rows start (start + b - 1)
    let (s, n) ← n.backprop junk s yi
    let (s, n) ← n.update s
    .ok ((st.1 + 1) % 2 ^ 64, s, n)) (iters, s, n)

/-- `BatchTrainer::feeddata(x, y)`, batchtrainer.cpp:28-50. -/
def feeddata (junk : Nat → Nat → ℝ) (w : World) (t : BatchTrainer) (x y : Mat ℝ) : Res (World × BatchTrainer) := do
  let t := { t with x := x, y := y }
  let trainx ← extend x t.batchsize
  let trainy ← extend y t.batchsize
  let (iters, s, n) ← trainBatches junk x.nr trainx trainy t.batchsize.toNat t.iters w.store (w.nets t.nnet)
  let t := { t with iters := iters }
  let (s, n) := t.toTrainer.decay s n
  .ok (w.put t.nnet s n, t)

/-- `BatchTrainer::feeddata(x, y, ccost)`, batchtrainer.cpp:52-62. -/
def feedcost (junk : Nat → Nat → ℝ) (w : World) (t : BatchTrainer) (x y : Mat ℝ) (ccost : Bool) : Res (ℝ × World × BatchTrainer) := do
  let (w, t) ← feeddata junk w t x y
  let cost ← loop ((x.nr + t.batchsize.toNat - 1) / t.batchsize.toNat) (fun _ (c : ℝ) =>
    if ccost then do
      let v ← (w.nets t.nnet).computecost (w.nets t.nnet).getresult y
      .ok (c + v)
    else .ok c) 0
  .ok (cost, w, t)

end BatchTrainer

/-! ## src/trainer/momentumtrainer.cpp -/

/-- `class MomentumTrainer`, momentumtrainer.h:26-28. -/
@[ext] structure MomentumTrainer extends Trainer where
  momentum : ℝ
  ograd : Mat ℝ
  hgrads : List (Mat ℝ)

namespace MomentumTrainer

/-- A matrix of zeros of the size of `m` (`m.zeros()`). -/
def zeros (m : Mat ℝ) : Mat ℝ := Mat.of m.nr m.nc (fun _ _ => 0)

/-- `initmomentum()`, momentumtrainer.cpp:46-56, in a trainer whose other members are those of `t`. -/
def initmomentum (w : World) (t : Trainer) (momentum : ℝ) : MomentumTrainer :=
  { t with
    momentum := momentum
    ograd := zeros (w.nets t.nnet).output.W
    hgrads := (w.nets t.nnet).hidden.map (fun p => zeros (w.store p).base.W) }

/-- `MomentumTrainer(nnet, momentum)`, momentumtrainer.cpp:12-15; `MomentumTrainer(nnet)`, momentumtrainer.cpp:7-10, has momentum 0. -/
def new (w : World) (nnet : Nat) (momentum : ℝ) : MomentumTrainer := initmomentum w (Trainer.new nnet) momentum

/-- `MomentumTrainer(nnet, momentum, r0, k, step)`, momentumtrainer.cpp:23-27; `MomentumTrainer(nnet, r0, k, step)`,
momentumtrainer.cpp:17-21, has momentum 0. -/
def newDecay (w : World) (nnet : Nat) (momentum r0 k : ℝ) (step : Nat) : MomentumTrainer :=
  initmomentum w (Trainer.newDecay nnet r0 k step) momentum

/-- `MomentumTrainer(const MomentumTrainer&)`, momentumtrainer.cpp:30-32. -/
def copyCtor (t : MomentumTrainer) : MomentumTrainer :=
  { Trainer.newDecay t.nnet t.r0 t.k t.step with momentum := t.momentum, ograd := t.ograd, hgrads := t.hgrads }

/-- `self = t`: `MomentumTrainer::operator=`, momentumtrainer.cpp:34-40. -/
def assign (self t : MomentumTrainer) : MomentumTrainer :=
  { Trainer.assign self.toTrainer t.toTrainer with momentum := t.momentum, ograd := t.ograd, hgrads := t.hgrads }

/-- New value of `hgrads[i]`, momentumtrainer.cpp:68-74. `(iters-1)/iters` is a division of unsigned integers. -/
def mix (momentum : ℝ) (iters : Nat) (old grad : Mat ℝ) : Res (Mat ℝ) :=
  if momentum ≠ 0 then (old.smul momentum).add (grad.smul (1 - momentum))
  else if iters = 0 then .error (.ub .divByZero)
  else (old.smul (((iters - 1) / iters : Nat) : ℝ)).add (grad.smul (1 / (iters : ℝ)))

/-- Loop of momentumtrainer.cpp:67-75 from index `i` on. -/
def mixAll (momentum : ℝ) (iters : Nat) (s : Store) (n : Net) : Nat → List (Mat ℝ) → Res (List (Mat ℝ))
  | _, [] => .ok []
  | i, g :: gs => do
    let h ← n.gethidden s i
    let g' ← mix momentum iters g h.grad
    let gs' ← mixAll momentum iters s n (i + 1) gs
    .ok (g' :: gs')

/-- `MomentumTrainer::feeddata(x, y)`, momentumtrainer.cpp:58-78. -/
def feeddata (junk : Nat → Nat → ℝ) (w : World) (t : MomentumTrainer) (x y : Mat ℝ) : Res (World × MomentumTrainer) := do
  let t := { t with toTrainer := t.toTrainer.count }
  let (s, n) := t.toTrainer.decay w.store (w.nets t.nnet)
  let (_, s, n) ← n.forwardprop junk s x
  let (s, n) ← n.backprop junk s y
  let ograd ← (t.ograd.smul t.momentum).add (n.output.grad.smul (1 - t.momentum))
  let hgrads ← mixAll t.momentum t.iters s n 0 t.hgrads
  let (s, n) ← n.updateWith s ograd hgrads
  .ok (w.put t.nnet s n, { t with ograd := ograd, hgrads := hgrads })

/-- `MomentumTrainer::feeddata(x, y, ccost)`, momentumtrainer.cpp:80-88. -/
def feedcost (junk : Nat → Nat → ℝ) (w : World) (t : MomentumTrainer) (x y : Mat ℝ) (ccost : Bool) : Res (ℝ × World × MomentumTrainer) := do
  let (w, t) ← t.feeddata junk w x y
  let cost ← (if ccost then (w.nets t.nnet).computecost (w.nets t.nnet).getresult y else .ok 0 : Res ℝ)
  .ok (cost, w, t)

end MomentumTrainer
end
end Nnet.NN
