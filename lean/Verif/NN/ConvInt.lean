import Verif.NN.Special
/-!
# Convolution and pooling with 32-bit sizes

Special.lean computes the sizes and indices of these layers with unbounded integers. Here every `int` operation of the same functions is checked: signed overflow is undefined behaviour
(`cint`). The functions follow Special.lean line by line. Loop counters `++i` stay below an `int` and are not checked. An operation with an unsigned operand (`i+y.n_rows-1`, `x.n_cols - y.n_cols`)
does not overflow; a mixed one wraps modulo 2^64, as in Special.lean.
-/
namespace Nnet.NN
noncomputable section
namespace ConvInt
open Conv

/-- `a / b` for `int`s: division by zero and `INT_MIN / -1` are undefined. -/
def cdiv (a b : Int) : Res Int := if b = 0 then .error (.ub .divByZero) else cint (a.tdiv b)

/-- `Conv2DLayer::Conv2DLayer(...)`, conv2dlayer.cpp:8-20, with the `pnnodes+1` of layer.cpp:21. -/
def new (dist : Draws) (junk : Nat → Nat → ℝ) (inputwidth inputheight pnfilter nfilter spatial stride padding : Int) (lrate : ℝ)
    (actfunc : ActFunc ℝ) : Res (Layer × Conv) := do
  let sp ← cint (spatial * pnfilter)
  let pnnodes ← cint (sp - 1)
  let nnodes ← cint (spatial * nfilter)
  let _ ← cint (pnnodes + 1)
  let L ← Layer.new dist junk pnnodes nnodes lrate 0 actfunc
  let inputsize ← cint (inputwidth * inputheight)
  let L ← L.randominit dist (Real.sqrt (sp : ℝ))
  let w0 ← cint (inputwidth - spatial)
  let p2 ← cint (2 * padding)
  let w1 ← cint (w0 + p2)
  let w2 ← cdiv w1 stride
  let outputwidth ← cint (w2 + 1)
  let h0 ← cint (inputheight - spatial)
  let p2 ← cint (2 * padding)
  let h1 ← cint (h0 + p2)
  let h2 ← cdiv h1 stride
  let outputheight ← cint (h2 + 1)
  let outputsize ← cint (outputwidth * outputheight)
  .ok (L, { inputwidth, inputheight, inputsize, outputwidth, outputheight, outputsize, pnfilter, nfilter, spatial, stride, padding, images := [] })

/-- The two column numbers `k*size` and `(k+1)*size-1` of a block. -/
def block (k size : Int) : Res (Int × Int) := do
  let a ← cint (k * size)
  let k1 ← cint (k + 1)
  let b ← cint (k1 * size)
  let b ← cint (b - 1)
  .ok (a, b)

/-- `toimage(pa, filter, w, h)`, conv2dlayer.cpp:102-107. -/
def toimage (pa : Mat ℝ) (filter w h : Int) : Res (Mat ℝ) := do
  let size ← cint (w * h)
  let (a, b) ← block filter size
  let img ← pa.cols a b
  if 0 ≤ h ∧ 0 ≤ w then .ok (img.reshape h.toNat w.toNat) else .error .throw

/-- `SPATIAL(m, j, k)`, conv2dlayer.cpp:40-41. -/
def spatialBlock (spatial : Int) (m : Mat ℝ) (j k : Int) : Res (Mat ℝ) := do
  let (a, c) ← block j spatial
  let (b, d) ← block k spatial
  m.submat a b c d

/-- `flip(pn, n)`, conv2dlayer.cpp:122-125. -/
def flip (spatial : Int) (W : Mat ℝ) (pn n : Int) : Res (Mat ℝ) := do
  let filter ← spatialBlock spatial W pn n
  .ok filter.flip

/-- `for (int i = 0; i < n; i += stride) body` for `stride ≥ 1`; `i += stride` is checked. -/
def stepLoop {σ : Type _} (n : Int) (stride : Nat) (body : Int → σ → Res σ) (s : σ) : Res σ :=
  loop ((n.toNat + stride - 1) / stride) (fun t s => do
    let s ← body (t * stride : Nat) s
    let _ ← cint ((t * stride : Nat) + stride)
    .ok s) s

/-- `convolve(x, y, output)`, conv2dlayer.cpp:129-141. -/
def convolve (junk : Nat → Nat → ℝ) (stride : Int) (x y : Mat ℝ) : Res (Mat ℝ) :=
  if stride = 0 then .error (.ub .divByZero) else if stride < 0 then .error .throw else do
  let ow := outDim x.nc y.nc stride.toNat
  let oh := outDim x.nr y.nr stride.toNat
  let size ← cint (ow * oh)
  let output ← Mat.mk' junk 1 size
  stepLoop oh stride.toNat (fun i => stepLoop ow stride.toNat (fun j output => do
    let win ← x.submat i j (i + y.nr - 1) (j + y.nc - 1)
    let result ← win.schur y
    let a ← cint (i * ow)
    let a ← cint (a + j)
    output.setAt 0 a (sumall result))) output

/-- `cube(inputheight + 2*padding, inputwidth + 2*padding, n)`. -/
def newImages (junk : Nat → Nat → ℝ) (c : Conv) (n : Nat) : Res (List (Mat ℝ)) := do
  let p ← cint (2 * c.padding)
  let a ← cint (c.inputheight + p)
  let p ← cint (2 * c.padding)
  let b ← cint (c.inputwidth + p)
  let m ← Mat.mk' junk a b
  .ok (List.replicate n m)

/-- `m.submat(i, k*size, i, (k+1)*size-1) += v`. -/
def addRowBlock (m : Mat ℝ) (i k size : Int) (v : Mat ℝ) : Res (Mat ℝ) := do
  let (a, b) ← block k size
  m.updSubmat (· + ·) i a i b v

/-- The loops common to the three `forwardprop` functions (conv2dlayer.cpp:44-63, maxpoollayer.cpp:22-45, meanpoollayer.cpp:19-40). -/
def channelLoops {σ : Type _} (junk : Nat → Nat → ℝ) (c : Conv) (pa : Mat ℝ) (extra : Res σ)
    (step : (i : Nat) → (j : Nat) → (k : Nat) → Mat ℝ → σ → Res (Mat ℝ × σ)) : Res (Mat ℝ × List (Mat ℝ) × σ) := do
  let size ← cint (c.outputsize * c.nfilter)
  let a ← Mat.mk' (fun _ _ => (0 : ℝ)) pa.nr size
  let images ← newImages junk c pa.nr
  let extra ← extra
  loop pa.nr (fun i s => do
    let _sample ← pa.row i
    loop c.pnfilter.toNat (fun j (s : Mat ℝ × List (Mat ℝ) × σ) => do
      let img ← toimage pa j c.inputwidth c.inputheight
      let padded ← addzeropadding c.padding img
      let images ← setSlice s.2.1 i padded
      loop c.nfilter.toNat (fun k (s : Mat ℝ × List (Mat ℝ) × σ) => do
        let image ← getSlice s.2.1 i
        let (partialoutput, e) ← step i j k image s.2.2
        let a ← addRowBlock s.1 i k c.outputsize partialoutput
        .ok (a, s.2.1, e)) (s.1, images, s.2.2)) s) (a, images, extra)

/-- `Conv2DLayer::forwardprop(pa)`, conv2dlayer.cpp:43-65. -/
def forwardprop (junk : Nat → Nat → ℝ) (L : Layer) (c : Conv) (pa : Mat ℝ) : Res (Mat ℝ × Layer × Conv) := do
  let (a, images, _) ← channelLoops junk c pa (.ok ()) (fun _ j k image _ => do
    let kernel ← spatialBlock c.spatial L.W j k
    let o ← convolve junk c.stride image kernel
    .ok (o, ()))
  .ok (funcop a L.actfunc.act, { L with a := a }, { c with images := images })

/-- `Conv2DLayer::backprop(del)`, conv2dlayer.cpp:67-100. -/
def backprop (junk : Nat → Nat → ℝ) (L : Layer) (c : Conv) (del : Mat ℝ) : Res (Mat ℝ × Layer × Conv) := do
  let size ← cint (c.inputsize * c.pnfilter)
  let delta ← Mat.mk' (fun _ _ => (0 : ℝ)) del.nr size
  let grad := Mat.of L.grad.nr L.grad.nc (fun _ _ => (0 : ℝ))
  let d := funcop del L.actfunc.actd
  let (delta, grad) ← loop d.nr (fun i s => do
    let deltay ← d.row i
    loop c.nfilter.toNat (fun k s => do
      let dimg ← toimage deltay k c.outputwidth c.outputheight
      loop c.pnfilter.toNat (fun j (s : Mat ℝ × Mat ℝ) => do
        let image ← getSlice c.images i
        let partialgrad ← convolve junk c.stride image dimg
        let partialgrad ← (if 0 ≤ c.spatial then .ok (partialgrad.reshape c.spatial.toNat c.spatial.toNat) else .error .throw : Res _)
        let (a1, b1) ← block j c.spatial
        let (a2, b2) ← block k c.spatial
        let grad ← s.2.updSubmat (· + ·) a1 a2 b1 b2 partialgrad
        let paddimg ← addzeropadding c.padding dimg
        let kernel ← flip c.spatial L.W j k
        let partialdelta ← convolve junk c.stride paddimg kernel
        let delta ← addRowBlock s.1 i j c.inputsize partialdelta
        .ok (delta, grad)) s) s) (delta, grad)
  .ok (delta, { L with delta := delta, grad := grad }, c)

/-- `maxpool(image, output, index)`, maxpoollayer.cpp:57-75. -/
def maxpool (spatial stride : Int) (image : Mat ℝ) : Res (Mat ℝ × Mat ℝ) :=
  if stride = 0 then .error (.ub .divByZero) else if stride < 0 ∨ spatial < 0 then .error .throw else do
  let ow := outDim image.nc spatial.toNat stride.toNat
  let oh := outDim image.nr spatial.toNat stride.toNat
  let size ← cint (ow * oh)
  let output ← Mat.mk' (fun _ _ => (0 : ℝ)) 1 size
  let size ← cint (ow * oh)
  let size2 ← cint (size * 2)
  let index ← Mat.mk' (fun _ _ => (0 : ℝ)) 1 size2
  loop oh.toNat (fun i s => loop ow.toNat (fun j (s : Mat ℝ × Mat ℝ) => do
    let i1 ← cint (i + spatial)
    let i1 ← cint (i1 - 1)
    let j1 ← cint (j + spatial)
    let j1 ← cint (j1 - 1)
    let subimage ← image.submat i j i1 j1
    let (val, row, col) ← MaxPool.maxval subimage
    let a ← cint (i * ow)
    let a ← cint (a + j)
    let output ← s.1.setAt 0 a val
    let a ← cint (i * ow)
    let a ← cint (a * 2)
    let a ← cint (a + j)
    let index ← s.2.setAt 0 a (row : ℝ)
    let a ← cint (i * ow)
    let a ← cint (a * 2)
    let a ← cint (a + j)
    let a ← cint (a + 1)
    let index ← index.setAt 0 a (col : ℝ)
    .ok (output, index)) s) (output, index)

/-- `MaxPoolLayer::forwardprop(pa)`, maxpoollayer.cpp:21-47. -/
def maxForwardprop (junk : Nat → Nat → ℝ) (L : Layer) (c : Conv) (pa : Mat ℝ) : Res (Mat ℝ × Layer × Conv × Mat ℝ) := do
  let (a, images, indexes) ← channelLoops junk c pa (do
      let size ← cint (c.outputsize * 2)
      Mat.mk' junk pa.nr size) (fun i _ _ image indexes => do
    let (o, index) ← maxpool c.spatial c.stride image
    let b ← cint (c.outputsize * 2)
    let b ← cint (b - 1)
    let indexes ← indexes.updSubmat (fun _ v => v) i 0 i b index
    .ok (o, indexes))
  .ok (funcop a L.actfunc.act, { L with a := a }, { c with images := images }, indexes)

/-- `meanpool(image, output)`, meanpoollayer.cpp:48-61. -/
def meanpool (spatial stride : Int) (image : Mat ℝ) : Res (Mat ℝ) :=
  if stride = 0 then .error (.ub .divByZero) else if stride < 0 ∨ spatial < 0 then .error .throw else do
  let ow := outDim image.nc spatial.toNat stride.toNat
  let oh := outDim image.nr spatial.toNat stride.toNat
  let size ← cint (ow * oh)
  let output ← Mat.mk' (fun _ _ => (0 : ℝ)) 1 size
  loop oh.toNat (fun i s => loop ow.toNat (fun j (output : Mat ℝ) => do
    let i1 ← cint (i + spatial)
    let i1 ← cint (i1 - 1)
    let j1 ← cint (j + spatial)
    let j1 ← cint (j1 - 1)
    let subimage ← image.submat i j i1 j1
    let val ← MeanPool.meanval subimage
    let a ← cint (i * ow)
    let a ← cint (a + j)
    output.setAt 0 a val) s) output

/-- `MeanPoolLayer::forwardprop(pa)`, meanpoollayer.cpp:18-42. -/
def meanForwardprop (junk : Nat → Nat → ℝ) (L : Layer) (c : Conv) (pa : Mat ℝ) : Res (Mat ℝ × Layer × Conv) := do
  let (a, images, _) ← channelLoops junk c pa (.ok ()) (fun _ _ _ image _ => do
    let o ← meanpool c.spatial c.stride image
    .ok (o, ()))
  .ok (funcop a L.actfunc.act, { L with a := a }, { c with images := images })

end ConvInt
end
end Nnet.NN
