import Verif.NN.Layer
import Mathlib.Data.Finset.Lattice.Fold
import Mathlib.Data.Finset.Prod
/-!
# NormLayer, SoftmaxLayer, Conv2DLayer, MaxPoolLayer, MeanPoolLayer

Models src/layer/{normlayer,softmaxlayer,conv2dlayer,maxpoollayer,meanpoollayer}.{h,cpp}. Every method takes and returns the members it
uses: the `Layer` part and the members of the derived class. OpenMP loops are modelled by their sequential order here.
-/
namespace Nnet.NN
noncomputable section

/-- `m.max()`: throws for a matrix without elements. -/
def Mat.maxElem (m : Mat ℝ) : Res ℝ :=
  if h : (Finset.range m.nr ×ˢ Finset.range m.nc).Nonempty then .ok (Finset.sup' _ h (fun p => m.f p.1 p.2)) else .error .throw

/-- `m.min()`. -/
def Mat.minElem (m : Mat ℝ) : Res ℝ :=
  if h : (Finset.range m.nr ×ˢ Finset.range m.nc).Nonempty then .ok (Finset.inf' _ h (fun p => m.f p.1 p.2)) else .error .throw

/-! ## src/layer/normlayer.cpp -/
namespace Norm

/-- `NormLayer::NormLayer()`, normlayer.cpp:8. The member `normval` is not initialised: see `Kind.norm` in Net.lean. -/
def newBase (dist : Draws) (junk : Nat → Nat → ℝ) : Res Layer := Layer.new dist junk 0 0 0 0 Act.identity

/-- `NormLayer::forwardprop(pa)`, normlayer.cpp:18-26. -/
def forwardprop (L : Layer) (normval : ℝ) (pa : Mat ℝ) : Res (Mat ℝ × Layer × ℝ) := do
  let maxval ← pa.maxElem
  let minval ← pa.minElem
  let normval := if normval = 0 then maxval - minval else normval
  let z := pa.divS normval
  .ok (z, { L with z := z, a := z }, normval)

/-- `NormLayer::backprop(d)`, normlayer.cpp:28-32. -/
def backprop (normval : ℝ) (d : Mat ℝ) : Mat ℝ × ℝ := (d.divS normval, 0)

end Norm

/-! ## src/layer/softmaxlayer.cpp -/
namespace SoftmaxL

/-- `SoftmaxLayer::forwardprop(pa)`, softmaxlayer.cpp:15-20: the result is also stored in `p`. -/
def forwardprop (pa : Mat ℝ) : Res (Mat ℝ) := do
  let expo := exponential pa
  let expo_sum ← repeatM (rowsum expo) 1 expo.nc
  expo.ediv expo_sum

/-- `SoftmaxLayer::backprop(delta)`, softmaxlayer.cpp:22-26. -/
def backprop (delta : Mat ℝ) : Res (Mat ℝ) := do
  let expo := exponential delta
  let expo_sum ← repeatM (rowsum expo) 1 expo.nc
  expo.ediv expo_sum

end SoftmaxL

/-! ## src/layer/conv2dlayer.cpp -/

/-- Members of `class Conv2DLayer`, conv2dlayer.h:24-33. `images` is the cube, slice by slice. -/
structure Conv where
  inputwidth : Int
  inputheight : Int
  inputsize : Int
  outputwidth : Int
  outputheight : Int
  outputsize : Int
  pnfilter : Int
  nfilter : Int
  spatial : Int
  stride : Int
  padding : Int
  images : List (Mat ℝ)

/-- Conversion of an unsigned 64-bit value to `int`. -/
def toI32 (n : Nat) : Int := ((n + 2 ^ 31) % 2 ^ 32 : Nat) - 2 ^ 31

/-- `(xn - yn) / stride + 1` in unsigned 64-bit arithmetic, stored in an `int`: conv2dlayer.cpp:130-131, maxpoollayer.cpp:58-59,
meanpoollayer.cpp:49-50. -/
def outDim (xn yn : Nat) (stride : Nat) : Int := toI32 (((xn + 2 ^ 64 - yn) % 2 ^ 64 / stride + 1) % 2 ^ 64)

namespace Conv

/-- Constructor, conv2dlayer.cpp:8-20. A zero stride divides by zero. -/
def new (dist : Draws) (junk : Nat → Nat → ℝ) (inputwidth inputheight pnfilter nfilter spatial stride padding : Int) (lrate : ℝ)
    (actfunc : ActFunc ℝ) : Res (Layer × Conv) := do
  let L ← Layer.new dist junk (spatial * pnfilter - 1) (spatial * nfilter) lrate 0 actfunc
  let L ← L.randominit dist (Real.sqrt ((spatial * pnfilter : Int) : ℝ))
  if stride = 0 then .error (.ub .divByZero) else
  let outputwidth := (inputwidth - spatial + 2 * padding).tdiv stride + 1
  let outputheight := (inputheight - spatial + 2 * padding).tdiv stride + 1
  .ok (L, { inputwidth, inputheight, inputsize := inputwidth * inputheight, outputwidth, outputheight,
            outputsize := outputwidth * outputheight, pnfilter, nfilter, spatial, stride, padding, images := [] })

/-- `self = conv`: `Conv2DLayer::operator=`, conv2dlayer.cpp:28-38. `stride` receives `conv.spatial`; `inputsize`, the output sizes
and all members of the base class keep their values. -/
def assign (self conv : Conv) : Conv :=
  { self with
    inputwidth := conv.inputwidth, inputheight := conv.inputheight, pnfilter := conv.pnfilter, nfilter := conv.nfilter,
    spatial := conv.spatial, stride := conv.spatial, padding := conv.padding, images := conv.images }

/-- Copy constructor, conv2dlayer.cpp:22-26. `mem` is the previous contents of the memory of the new object: the members that
neither the constructor nor `operator=` sets keep it. -/
def copyCtor (dist : Draws) (junk : Nat → Nat → ℝ) (mem : Conv) (L : Layer) (conv : Conv) : Res (Layer × Conv) := do
  let L' ← Layer.new dist junk (conv.spatial * conv.pnfilter - 1) (conv.spatial * conv.nfilter) L.lrate 0 L.actfunc
  .ok (L', assign mem conv)

/-- `toimage(pa, filter, w, h)`, conv2dlayer.cpp:102-107. -/
def toimage (pa : Mat ℝ) (filter w h : Int) : Res (Mat ℝ) := do
  let size := w * h
  let img ← pa.cols (filter * size) ((filter + 1) * size - 1)
  if 0 ≤ h ∧ 0 ≤ w then .ok (img.reshape h.toNat w.toNat) else .error .throw

/-- `addzeropadding(image)`, conv2dlayer.cpp:109-120. -/
def addzeropadding (padding : Int) (image : Mat ℝ) : Res (Mat ℝ) := do
  let m ← loop padding.toNat (fun _ m => do
    let m ← addrows m 0 0
    addrows m m.nr 0) image
  loop padding.toNat (fun _ m => do
    let m ← addcols m 0 0
    addcols m m.nc 0) m

/-- `SPATIAL(m, j, k)`, conv2dlayer.cpp:40-41. -/
def spatialBlock (spatial : Int) (m : Mat ℝ) (j k : Int) : Res (Mat ℝ) :=
  m.submat (j * spatial) (k * spatial) ((j + 1) * spatial - 1) ((k + 1) * spatial - 1)

/-- `flip(pn, n)`, conv2dlayer.cpp:122-125. -/
def flip (spatial : Int) (W : Mat ℝ) (pn n : Int) : Res (Mat ℝ) := do
  let filter ← spatialBlock spatial W pn n
  .ok filter.flip

/-- `for (int i = 0; i < n; i += stride) body` for `stride ≥ 1`. -/
def stepLoop {σ : Type _} (n : Int) (stride : Nat) (body : Int → σ → Res σ) (s : σ) : Res σ :=
  loop ((n.toNat + stride - 1) / stride) (fun t => body (t * stride : Nat)) s

/-- `convolve(x, y, output)`, conv2dlayer.cpp:129-141: the loop variables run over *output* positions in steps of `stride`, the
window starts at the loop variables. Cells that no iteration writes keep what the memory contained. A zero stride divides by zero; a
negative one makes the second window start outside the image, which throws. -/
def convolve (junk : Nat → Nat → ℝ) (stride : Int) (x y : Mat ℝ) : Res (Mat ℝ) :=
  if stride = 0 then .error (.ub .divByZero) else if stride < 0 then .error .throw else do
  let ow := outDim x.nc y.nc stride.toNat
  let oh := outDim x.nr y.nr stride.toNat
  let output ← Mat.mk' junk 1 (ow * oh)
  stepLoop oh stride.toNat (fun i => stepLoop ow stride.toNat (fun j output => do
    let win ← x.submat i j (i + y.nr - 1) (j + y.nc - 1)
    let result ← win.schur y
    output.setAt 0 (i * ow + j) (sumall result))) output

/-- `images.slice(i) = m`: throws when `i` is not a slice or the size differs from the cube's. -/
def setSlice (images : List (Mat ℝ)) (i : Nat) (m : Mat ℝ) : Res (List (Mat ℝ)) :=
  match images[i]? with
  | some old => if old.nr = m.nr ∧ old.nc = m.nc then .ok (images.set i m) else .error .throw
  | none => .error .throw

/-- `images.slice(i)`. -/
def getSlice (images : List (Mat ℝ)) (i : Nat) : Res (Mat ℝ) :=
  match images[i]? with
  | some m => .ok m
  | none => .error .throw

/-- `cube(inputheight + 2*padding, inputwidth + 2*padding, n)`. -/
def newImages (junk : Nat → Nat → ℝ) (c : Conv) (n : Nat) : Res (List (Mat ℝ)) := do
  let m ← Mat.mk' junk (c.inputheight + 2 * c.padding) (c.inputwidth + 2 * c.padding)
  .ok (List.replicate n m)

/-- `m.submat(i, k*size, i, (k+1)*size-1) += v`. -/
def addRowBlock (m : Mat ℝ) (i k size : Int) (v : Mat ℝ) : Res (Mat ℝ) :=
  m.updSubmat (· + ·) i (k * size) i ((k + 1) * size - 1) v

/-- The loops common to the three `forwardprop` functions (conv2dlayer.cpp:44-63, maxpoollayer.cpp:22-45, meanpoollayer.cpp:19-40):
`step k image` is the contribution of the padded image of input channel `j` to output channel `k`. -/
def channelLoops {σ : Type _} (junk : Nat → Nat → ℝ) (c : Conv) (pa : Mat ℝ) (extra : σ)
    (step : (i : Nat) → (j : Nat) → (k : Nat) → Mat ℝ → σ → Res (Mat ℝ × σ)) : Res (Mat ℝ × List (Mat ℝ) × σ) := do
  let a ← Mat.mk' (fun _ _ => (0 : ℝ)) pa.nr (c.outputsize * c.nfilter)
  let images ← newImages junk c pa.nr
  loop pa.nr (fun i s => do
    let _sample ← pa.row i
    loop c.pnfilter.toNat (fun j (s : Mat ℝ × List (Mat ℝ) × σ) => do
      let img ← toimage pa j c.inputwidth c.inputheight
      let padded ← addzeropadding c.padding img
      let images ← setSlice s.2.1 i padded
      loop c.nfilter.toNat (fun k (s : Mat ℝ × List (Mat ℝ) × σ) => do
        let image ← getSlice s.2.1 i
        let (partialoutput, e) ← step i j k image s.2.2
        let a ← addRowBlock s.1 i k c.outputsize partialoutput
        .ok (a, s.2.1, e)) (s.1, images, s.2.2)) s) (a, images, extra)

/-- `Conv2DLayer::forwardprop(pa)`, conv2dlayer.cpp:43-65. The member `a` keeps the values before the activation. -/
def forwardprop (junk : Nat → Nat → ℝ) (L : Layer) (c : Conv) (pa : Mat ℝ) : Res (Mat ℝ × Layer × Conv) := do
  let (a, images, _) ← channelLoops junk c pa () (fun _ j k image _ => do
    let kernel ← spatialBlock c.spatial L.W j k
    let o ← convolve junk c.stride image kernel
    .ok (o, ()))
  .ok (funcop a L.actfunc.act, { L with a := a }, { c with images := images })

/-- `Conv2DLayer::backprop(del)`, conv2dlayer.cpp:67-100. -/
def backprop (junk : Nat → Nat → ℝ) (L : Layer) (c : Conv) (del : Mat ℝ) : Res (Mat ℝ × Layer × Conv) := do
  let delta ← Mat.mk' (fun _ _ => (0 : ℝ)) del.nr (c.inputsize * c.pnfilter)
  let grad := Mat.of L.grad.nr L.grad.nc (fun _ _ => (0 : ℝ))
  let d := funcop del L.actfunc.actd
  let (delta, grad) ← loop d.nr (fun i s => do
    let deltay ← d.row i
    loop c.nfilter.toNat (fun k s => do
      let dimg ← toimage deltay k c.outputwidth c.outputheight
      loop c.pnfilter.toNat (fun j (s : Mat ℝ × Mat ℝ) => do
        let image ← getSlice c.images i
        let partialgrad ← convolve junk c.stride image dimg
        let partialgrad ← (if 0 ≤ c.spatial then .ok (partialgrad.reshape c.spatial.toNat c.spatial.toNat) else .error .throw : Res _)
        let grad ← s.2.updSubmat (· + ·) (j * c.spatial) (k * c.spatial) (((j : Int) + 1) * c.spatial - 1) (((k : Int) + 1) * c.spatial - 1) partialgrad
        let paddimg ← addzeropadding c.padding dimg
        let kernel ← flip c.spatial L.W j k
        let partialdelta ← convolve junk c.stride paddimg kernel
        let delta ← addRowBlock s.1 i j c.inputsize partialdelta
        .ok (delta, grad)) s) s) (delta, grad)
  .ok (delta, { L with delta := delta, grad := grad }, c)

end Conv

/-! ## src/layer/maxpoollayer.cpp -/
namespace MaxPool

/-- Constructor, maxpoollayer.cpp:5-8. -/
def new (dist : Draws) (junk : Nat → Nat → ℝ) (inputwidth inputheight nfilter spatial stride : Int) : Res (Layer × Conv) :=
  Conv.new dist junk inputwidth inputheight nfilter nfilter spatial stride 0 0 Act.identity

/-- `maxval(partialimage, row, col)`, maxpoollayer.cpp:77-89, with `row` and `col` starting from 0 (line 68): `(value, row, col)`. -/
def maxval (m : Mat ℝ) : Res (ℝ × Nat × Nat) :=
  loop m.nr (fun i s => loop m.nc (fun j (s : ℝ × Nat × Nat) => do
    let v ← m.at' i j
    .ok (if v > s.1 then (v, i, j) else s)) s) (0, 0, 0)

/-- `maxpool(image, output, index)`, maxpoollayer.cpp:57-75. -/
def maxpool (spatial stride : Int) (image : Mat ℝ) : Res (Mat ℝ × Mat ℝ) :=
  if stride = 0 then .error (.ub .divByZero) else if stride < 0 ∨ spatial < 0 then .error .throw else do
  let ow := outDim image.nc spatial.toNat stride.toNat
  let oh := outDim image.nr spatial.toNat stride.toNat
  let output ← Mat.mk' (fun _ _ => (0 : ℝ)) 1 (ow * oh)
  let index ← Mat.mk' (fun _ _ => (0 : ℝ)) 1 (ow * oh * 2)
  loop oh.toNat (fun i s => loop ow.toNat (fun j (s : Mat ℝ × Mat ℝ) => do
    let subimage ← image.submat i j (i + spatial - 1) (j + spatial - 1)
    let (val, row, col) ← maxval subimage
    let output ← s.1.setAt 0 (i * ow + j) val
    let index ← s.2.setAt 0 (i * ow * 2 + j) (row : ℝ)
    let index ← index.setAt 0 (i * ow * 2 + j + 1) (col : ℝ)
    .ok (output, index)) s) (output, index)

/-- `MaxPoolLayer::forwardprop(pa)`, maxpoollayer.cpp:21-47. -/
def forwardprop (junk : Nat → Nat → ℝ) (L : Layer) (c : Conv) (pa : Mat ℝ) : Res (Mat ℝ × Layer × Conv × Mat ℝ) := do
  let indexes ← Mat.mk' junk pa.nr (c.outputsize * 2)
  let (a, images, indexes) ← Conv.channelLoops junk c pa indexes (fun i _ _ image indexes => do
    let (o, index) ← maxpool c.spatial c.stride image
    let indexes ← indexes.updSubmat (fun _ v => v) i 0 i (c.outputsize * 2 - 1) index
    .ok (o, indexes))
  .ok (funcop a L.actfunc.act, { L with a := a }, { c with images := images }, indexes)

/-- `MaxPoolLayer::backprop(delta)`, maxpoollayer.cpp:49-51. -/
def backprop (delta : Mat ℝ) : Mat ℝ := delta

end MaxPool

/-! ## src/layer/meanpoollayer.cpp

`MeanPoolLayer::update` is declared in meanpoollayer.h:17-18 but not defined, so a program that uses the class does not link;
the functions that are defined are modelled all the same. -/
namespace MeanPool

/-- Constructor, meanpoollayer.cpp:5-8. -/
def new (dist : Draws) (junk : Nat → Nat → ℝ) (inputwidth inputheight nfilter spatial stride : Int) : Res (Layer × Conv) :=
  Conv.new dist junk inputwidth inputheight nfilter nfilter spatial stride 0 0 Act.identity

/-- `meanval(partialimage)`, meanpoollayer.cpp:63-71. -/
def meanval (m : Mat ℝ) : Res ℝ := do
  let sum ← loop m.nr (fun i s => loop m.nc (fun j (s : ℝ) => do
    let v ← m.at' i j
    .ok (s + v)) s) 0
  .ok (sum / m.nr / m.nc)

/-- `meanpool(image, output)`, meanpoollayer.cpp:48-61. -/
def meanpool (spatial stride : Int) (image : Mat ℝ) : Res (Mat ℝ) :=
  if stride = 0 then .error (.ub .divByZero) else if stride < 0 ∨ spatial < 0 then .error .throw else do
  let ow := outDim image.nc spatial.toNat stride.toNat
  let oh := outDim image.nr spatial.toNat stride.toNat
  let output ← Mat.mk' (fun _ _ => (0 : ℝ)) 1 (ow * oh)
  loop oh.toNat (fun i s => loop ow.toNat (fun j (output : Mat ℝ) => do
    let subimage ← image.submat i j (i + spatial - 1) (j + spatial - 1)
    let val ← meanval subimage
    output.setAt 0 (i * ow + j) val) s) output

/-- `MeanPoolLayer::forwardprop(pa)`, meanpoollayer.cpp:18-42. -/
def forwardprop (junk : Nat → Nat → ℝ) (L : Layer) (c : Conv) (pa : Mat ℝ) : Res (Mat ℝ × Layer × Conv) := do
  let (a, images, _) ← Conv.channelLoops junk c pa () (fun _ _ _ image _ => do
    let o ← meanpool c.spatial c.stride image
    .ok (o, ()))
  .ok (funcop a L.actfunc.act, { L with a := a }, { c with images := images })

/-- `MeanPoolLayer::backprop(delta)`, meanpoollayer.cpp:44-46. -/
def backprop (_delta : Mat ℝ) : Mat ℝ := Mat.empty

end MeanPool
end
end Nnet.NN
