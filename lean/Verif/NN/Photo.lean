import Verif.NN.Special
/-!
# Model of test/convlayer_test.cpp

Not modelled: reading and resizing the picture (OpenCV), so that the picture is given in its final size; the clock and what is printed. `CV_LOAD_IMAGE_COLOR` gives three channels.
-/
namespace Nnet.NN
noncomputable section
namespace Photo

/-- The picture after `cv::resize(img, img, cv::Size(w, h))`, convlayer_test.cpp:52: `rows = h`, `cols = w`, `px i j c` is `img.at<cv::Vec3b>(i, j)[c]`. -/
structure Img where
  rows : Nat
  cols : Nat
  px : Nat → Nat → Nat → ℝ

/-- `resizeimg`, convlayer_test.cpp:20-31. -/
def resizeimg (junk : Nat → Nat → ℝ) (img : Img) : Res (Mat ℝ) := do
  let imgsize := img.rows * img.cols
  let sample ← Mat.mk' junk 1 (img.rows * img.cols * 3 : Nat)
  loop 3 (fun c sample => loop img.rows (fun i sample => loop img.cols (fun j sample =>
    sample.setAt 0 (c * imgsize + i * img.cols + j : Nat) (img.px i j c)) sample) sample) sample

/-- `main` from the construction of the layer, convlayer_test.cpp:54-80: 1000 forward passes, 1000 backward passes with the output as delta, 1000 of both. The results are the last values of
`out` and `delta`. -/
def main (dist : Draws) (junk : Nat → Nat → ℝ) (w h nfilter spatial stride padding : Int) (lrate : ℝ) (img : Img) : Res (Mat ℝ × Mat ℝ) := do
  let (L, c) ← Conv.new dist junk w h 3 nfilter spatial stride padding lrate Act.relu
  let sample ← resizeimg junk img
  let (out, L, c) ← loop 1000 (fun _ (s : Mat ℝ × Layer × Conv) => Conv.forwardprop junk s.2.1 s.2.2 sample) (Mat.empty, L, c)
  let (delta, L, c) ← loop 1000 (fun _ (s : Mat ℝ × Layer × Conv) => Conv.backprop junk s.2.1 s.2.2 out) (Mat.empty, L, c)
  let _ ← loop 1000 (fun _ (s : Layer × Conv) => do
    let (_, L, c) ← Conv.forwardprop junk s.1 s.2 sample
    let (_, L, c) ← Conv.backprop junk L c out
    .ok (L, c)) (L, c)
  .ok (out, delta)

end Photo
end
end Nnet.NN
