import Verif.NN.Trainer
/-!
# Model of the data handling of the test programs (test/model_test.cpp and copies of it in other tests)

`shuffledata` is the same in test5.cpp:21-39, test8.cpp:25-43, test12.cpp:29-47, test17.cpp:29-47, test22.cpp:31-49 and inline in test13.cpp:131-147, test14.cpp:130-146, test15.cpp:133-149;
`accuracy` is the same in test5.cpp:109, test6.cpp:101, test7.cpp:112, test8.cpp:106, test10.cpp:128, test11.cpp:130, test12.cpp:111, test13.cpp:150, test14.cpp:149, test15.cpp:152, test16.cpp:133, test17.cpp:94,
test21.cpp:82 and test22.cpp:98. `rand()` is an arbitrary sequence of non-negative numbers. Not modelled: `buildmodel` (it does not compile against the current `NeuralNet`), printing, drawing.
-/
namespace Nnet.NN
noncomputable section

namespace TestData

/-- The loop that exchanges two rows of one matrix, model_test.cpp:45-48 and 50-53: `r1` and `r2` are copies of the rows. -/
def swapLoop (m r1 r2 : Mat ℝ) (index1 index2 : Nat) : Res (Mat ℝ) :=
  loop m.nc (fun j (m : Mat ℝ) => do
    let v ← r2.at' 0 j
    let m ← m.setAt index1 j v
    let v ← r1.at' 0 j
    m.setAt index2 j v) m

/-- `shuffledata`, model_test.cpp:37-55. -/
def shuffledata (rnd : Nat → Nat) (x y : Mat ℝ) : Res (Mat ℝ × Mat ℝ) :=
  loop x.nr (fun i (xy : Mat ℝ × Mat ℝ) => do
    let index1 := rnd (2 * i) % xy.1.nr
    let index2 := rnd (2 * i + 1) % xy.1.nr
    let xrow1 ← xy.1.row index1
    let xrow2 ← xy.1.row index2
    let yrow1 ← xy.2.row index1
    let yrow2 ← xy.2.row index2
    let x ← swapLoop xy.1 xrow1 xrow2 index1 index2
    let y ← swapLoop xy.2 yrow1 yrow2 index1 index2
    .ok (x, y)) (x, y)

/-- `static_cast<int>(x.n_rows * trainpercent)` with `trainpercent = 0.8`, model_test.cpp:31 and 80. Exact for fewer than 2^50 rows: the double nearest to 0.8 is above 0.8 by less than 2^-53. -/
def trainsize (rows : Nat) : Nat := ⌊(rows : ℝ) * 0.8⌋₊

/-- What `load` delivers. -/
structure Split where
  trainx : Mat ℝ
  trainy : Mat ℝ
  testx : Mat ℝ
  testy : Mat ℝ

/-- The end of `load`, model_test.cpp:79-86. -/
def split (rnd : Nat → Nat) (x y : Mat ℝ) : Res Split := do
  let (x, y) ← shuffledata rnd x y
  let t := trainsize x.nr
  let trainx ← x.submat 0 0 ((t : Int) - 1) ((x.nc : Int) - 1)
  let trainy ← y.submat 0 0 ((t : Int) - 1) ((y.nc : Int) - 1)
  let testx ← x.submat t 0 ((x.nr : Int) - 1) ((x.nc : Int) - 1)
  let testy ← y.submat t 0 ((y.nr : Int) - 1) ((y.nc : Int) - 1)
  .ok ⟨trainx, trainy, testx, testy⟩

/-- `load`, model_test.cpp:56-87, after the numbers `n` of features, `o` of outputs and `m` of samples were read: `xs i j` is the number read for feature `j` of sample `i` and `cls i` the class read
after them, converted to `int`. -/
def load (junk : Nat → Nat → ℝ) (rnd : Nat → Nat) (n o m : Int) (xs : Nat → Nat → ℝ) (cls : Nat → Int) : Res Split := do
  let x ← Mat.mk' junk m n
  let y ← Mat.mk' junk m o
  let y := y.map (fun _ => 0)
  let (x, y) ← loop m.toNat (fun i (xy : Mat ℝ × Mat ℝ) => do
    let x ← loop n.toNat (fun j (x : Mat ℝ) => x.setAt i j (xs i j)) xy.1
    let y ← xy.2.setAt i (cls i) 1
    .ok (x, y)) (x, y)
  split rnd x y

/-- `static_cast<int>(v)` for a number in the range of `int`: the fraction is dropped. -/
def toInt (v : ℝ) : Int := if 0 ≤ v then ⌊v⌋ else ⌈v⌉

/-- `accuracy`, model_test.cpp:190-199. With no rows the program divides 0 by 0; here that is 0. -/
def accuracy (answer prediction : Mat ℝ) : Res ℝ := do
  let correct ← loop answer.nr (fun i (correct : ℝ) => do
    let p ← prediction.at' i 0
    let a ← answer.at' i (toInt p)
    .ok (if a = 1 then correct + 1 else correct)) 0
  .ok (correct / answer.nr)

/-- `evaluate`, model_test.cpp:227-236: both accuracies, and the network, which caches results. -/
def evaluate (junk : Nat → Nat → ℝ) (s : Store) (n : Net) (d : Split) : Res ((ℝ × ℝ) × Store × Net) := do
  let (pred, s, n) ← n.predict junk s d.trainx
  let train ← accuracy d.trainy pred
  let (pred, s, n) ← n.predict junk s d.testx
  let test ← accuracy d.testy pred
  .ok ((train, test), s, n)

/-- `setuptrainer`, model_test.cpp:159-189, after the name of the trainer, the number of iterations, `r0`, `k` and `step` were read; `rest` are the numbers that follow in the input. `strcmp` is 0 when
the names agree. The assignments to a `Trainer` are `Trainer::operator=`, which sees the `Trainer` part of the right-hand side. The result is the trainer and what is left of the input; an extraction from an empty input yields 0. -/
def setuptrainer (self : Trainer) (w : World) (nnet : Nat) (name : String) (r0 k : ℝ) (step : Nat) (rest : List ℝ) : Trainer × List ℝ :=
  if name ≠ "gd" then (self.assign (Trainer.newDecay nnet r0 k step), rest)
  else if name ≠ "sgd" then (self.assign (Trainer.newDecay nnet r0 k step), rest)
  else if name ≠ "batch" then (self.assign (BatchTrainer.newDecay nnet (toInt (rest.headD 0)) r0 k step).toTrainer, rest.tail)
  else if name ≠ "momentum" then (self.assign (MomentumTrainer.newDecay w nnet (rest.headD 0) r0 k step).toTrainer, rest.tail)
  else (self, rest)

end TestData

end
end Nnet.NN
