import Verif.NN.Layer
/-!
# The project's unit tests of activations and layers (test/act_test.cpp, test/layer_unit_test.cpp)

What the tests compute, with their literals replaced by parameters. Over the reals.
-/
namespace Nnet.NN.UnitTest
open Finset
noncomputable section

/-- `derivative(f, val)`, test/act_test.cpp:8-11, with `eps` as a parameter. -/
def derivative (eps : ℝ) (f : ℝ → ℝ) (val : ℝ) : ℝ := (f (val + eps) - f (val - eps)) / (2 * eps)

/-- The last check of every test case of test/act_test.cpp, e.g. lines 19-20: the distance of `actd(val)` from `derivative(act, val)`. -/
def derivativeError (eps : ℝ) (f : ActFunc ℝ) (val : ℝ) : ℝ := |f.actd val - derivative eps f.act val|

/-- `stddev` in `layer_random_init_weights`, test/layer_unit_test.cpp:16-30: `mean` is the sum of the weights. -/
def stddev (w : Mat ℝ) : Res ℝ := do
  let mean ← loop w.nr (fun i s => loop w.nc (fun j (m : ℝ) => do
    let v ← w.at' i j
    .ok (m + v)) s) 0
  let dev ← loop w.nr (fun i s => loop w.nc (fun j (d : ℝ) => do
    let v ← w.at' i j
    let diff := mean - v
    .ok (d + diff * diff)) s) 0
  .ok (Real.sqrt (dev / w.nr / w.nc))

/-- `layer_dimension_test`, test/layer_unit_test.cpp:34-57, for any sizes, parameters and contents of `input` and `delta`: the numbers of columns it compares. -/
def dimensions (dist : Draws) (junk : Nat → Nat → ℝ) (param : LayerParam) (input delta : Mat ℝ) : Res (Nat × Nat) := do
  let L ← Layer.ofParam dist junk param
  let (o1, L) ← L.forwardprop input
  let (o2, _) ← L.backprop delta
  .ok (o1.nc, o2.nc)

end
end Nnet.NN.UnitTest
