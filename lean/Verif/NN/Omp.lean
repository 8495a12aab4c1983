import Verif.NN.Special
/-!
# Exceptions in the OpenMP regions

If the library is built with OpenMP (`HAVE_OPENMP`, cmake/find_headers.cmake:2), the loops over the filters, conv2dlayer.cpp:54-61 and 79-97, maxpoollayer.cpp:33-43, meanpoollayer.cpp:29-38, are parallel regions,
whether or not the condition of the `if` clause holds (the clause chooses the number of threads). An exception must not leave a parallel region: the program is terminated (`std::terminate`). Special.lean has the same
functions for builds without OpenMP.

Simplification: the iterations run one after the other here. Par.lean has their interleavings; the data race of max pooling with 16 or more filters (C58) is not in this file.
-/
namespace Nnet.NN
noncomputable section

/-- The structured block of a parallel region: an exception that leaves it terminates the program. -/
def region {α : Type} : Res α → Res α
  | .error .throw => .error .abort
  | r => r

/-- The loops of the three `forwardprop` functions, conv2dlayer.cpp:44-63, maxpoollayer.cpp:22-45, meanpoollayer.cpp:19-40, in a build with OpenMP. -/
def Conv.channelLoopsOmp {σ : Type} (junk : Nat → Nat → ℝ) (c : Conv) (pa : Mat ℝ) (extra : σ)
    (step : (i : Nat) → (j : Nat) → (k : Nat) → Mat ℝ → σ → Res (Mat ℝ × σ)) : Res (Mat ℝ × List (Mat ℝ) × σ) := do
  let a ← Mat.mk' (fun _ _ => (0 : ℝ)) pa.nr (c.outputsize * c.nfilter)
  let images ← newImages junk c pa.nr
  loop pa.nr (fun i s => do
    let _sample ← pa.row i
    loop c.pnfilter.toNat (fun j (s : Mat ℝ × List (Mat ℝ) × σ) => do
      let img ← toimage pa j c.inputwidth c.inputheight
      let padded ← addzeropadding c.padding img
      let images ← setSlice s.2.1 i padded
      region (loop c.nfilter.toNat (fun k (s : Mat ℝ × List (Mat ℝ) × σ) => do
        let image ← getSlice s.2.1 i
        let (partialoutput, e) ← step i j k image s.2.2
        let a ← addRowBlock s.1 i k c.outputsize partialoutput
        .ok (a, s.2.1, e)) (s.1, images, s.2.2))) s) (a, images, extra)

/-- `Conv2DLayer::forwardprop(pa)`, conv2dlayer.cpp:43-65, in a build with OpenMP. -/
def Conv.forwardpropOmp (junk : Nat → Nat → ℝ) (L : Layer) (c : Conv) (pa : Mat ℝ) : Res (Mat ℝ × Layer × Conv) := do
  let (a, images, _) ← channelLoopsOmp junk c pa () (fun _ j k image _ => do
    let kernel ← spatialBlock c.spatial L.W j k
    let o ← convolve junk c.stride image kernel
    .ok (o, ()))
  .ok (funcop a L.actfunc.act, { L with a := a }, { c with images := images })

/-- `Conv2DLayer::backprop(del)`, conv2dlayer.cpp:67-100, in a build with OpenMP. -/
def Conv.backpropOmp (junk : Nat → Nat → ℝ) (L : Layer) (c : Conv) (del : Mat ℝ) : Res (Mat ℝ × Layer × Conv) := do
  let delta ← Mat.mk' (fun _ _ => (0 : ℝ)) del.nr (c.inputsize * c.pnfilter)
  let grad := Mat.of L.grad.nr L.grad.nc (fun _ _ => (0 : ℝ))
  let d := funcop del L.actfunc.actd
  let (delta, grad) ← loop d.nr (fun i s => do
    let deltay ← d.row i
    loop c.nfilter.toNat (fun k s => do
      let dimg ← toimage deltay k c.outputwidth c.outputheight
      region (loop c.pnfilter.toNat (fun j (s : Mat ℝ × Mat ℝ) => do
        let image ← getSlice c.images i
        let partialgrad ← convolve junk c.stride image dimg
        let partialgrad ← (if 0 ≤ c.spatial then .ok (partialgrad.reshape c.spatial.toNat c.spatial.toNat) else .error .throw : Res _)
        let grad ← s.2.updSubmat (· + ·) (j * c.spatial) (k * c.spatial) (((j : Int) + 1) * c.spatial - 1) (((k : Int) + 1) * c.spatial - 1) partialgrad
        let paddimg ← addzeropadding c.padding dimg
        let kernel ← flip c.spatial L.W j k
        let partialdelta ← convolve junk c.stride paddimg kernel
        let delta ← addRowBlock s.1 i j c.inputsize partialdelta
        .ok (delta, grad)) s)) s) (delta, grad)
  .ok (delta, { L with delta := delta, grad := grad }, c)

/-- `MaxPoolLayer::forwardprop(pa)`, maxpoollayer.cpp:21-47, in a build with OpenMP. -/
def MaxPool.forwardpropOmp (junk : Nat → Nat → ℝ) (L : Layer) (c : Conv) (pa : Mat ℝ) : Res (Mat ℝ × Layer × Conv × Mat ℝ) := do
  let indexes ← Mat.mk' junk pa.nr (c.outputsize * 2)
  let (a, images, indexes) ← Conv.channelLoopsOmp junk c pa indexes (fun i _ _ image indexes => do
    let (o, index) ← maxpool c.spatial c.stride image
    let indexes ← indexes.updSubmat (fun _ v => v) i 0 i (c.outputsize * 2 - 1) index
    .ok (o, indexes))
  .ok (funcop a L.actfunc.act, { L with a := a }, { c with images := images }, indexes)

/-- `MeanPoolLayer::forwardprop(pa)`, meanpoollayer.cpp:18-42, in a build with OpenMP. -/
def MeanPool.forwardpropOmp (junk : Nat → Nat → ℝ) (L : Layer) (c : Conv) (pa : Mat ℝ) : Res (Mat ℝ × Layer × Conv) := do
  let (a, images, _) ← Conv.channelLoopsOmp junk c pa () (fun _ _ _ image _ => do
    let o ← meanpool c.spatial c.stride image
    .ok (o, ()))
  .ok (funcop a L.actfunc.act, { L with a := a }, { c with images := images })

end
end Nnet.NN
