import Verif.NN.Special
/-!
# Specification of convolution and pooling

Written without reference to the model's functions. A sample is a row vector that holds the channels one after the other; a channel of
`h` rows and `w` columns is stored column by column, as Armadillo stores a matrix. An output row holds the output channels one after
the other, each of them row by row.
-/
namespace Nnet.NN
open Finset
noncomputable section
namespace Spec

/-- Pixel `(r, c)` of channel `j` of the sample `x`, after `pd` rows and columns of zeros have been added on each side. -/
def pixel (h w pd : Nat) (x : Nat → ℝ) (j r c : Nat) : ℝ :=
  if pd ≤ r ∧ r < pd + h ∧ pd ≤ c ∧ c < pd + w then x (j * (h * w) + (c - pd) * h + (r - pd)) else 0

/-- Number of positions of a window of `sp` in a line of `n` with `pd` zeros on both sides, in steps of `st`. -/
def outLen (n sp st pd : Nat) : Nat := (n + 2 * pd - sp) / st + 1

/-- The convolution: output channel `k`, position `(i, j)`. The kernel from input channel `q` to output channel `k` is the block
`(q, k)` of the weight matrix. -/
def conv (h w pn sp st pd : Nat) (W : Mat ℝ) (x : Nat → ℝ) (k i j : Nat) : ℝ :=
  ∑ q ∈ range pn, ∑ u ∈ range sp, ∑ v ∈ range sp, pixel h w pd x q (i * st + u) (j * st + v) * W.f (q * sp + u) (k * sp + v)

/-- `M` is the largest pixel of the window of channel `k` at output position `(i, j)`. -/
def IsWindowMax (h w sp st : Nat) (x : Nat → ℝ) (k i j : Nat) (M : ℝ) : Prop :=
  (∀ u v, u < sp → v < sp → pixel h w 0 x k (i * st + u) (j * st + v) ≤ M) ∧
  ∃ u v, u < sp ∧ v < sp ∧ M = pixel h w 0 x k (i * st + u) (j * st + v)

/-- The mean of the pixels of the window of channel `k` at output position `(i, j)`. -/
def windowMean (h w sp st : Nat) (x : Nat → ℝ) (k i j : Nat) : ℝ :=
  (∑ u ∈ range sp, ∑ v ∈ range sp, pixel h w 0 x k (i * st + u) (j * st + v)) / (sp * sp : ℕ)

/-- The row `y` (of a batch output) holds the values `g k i j` of `nf` channels of `oh x ow` positions. -/
def IsMaps (oh ow nf : Nat) (y : Nat → ℝ) (g : Nat → Nat → Nat → ℝ) : Prop :=
  ∀ k i j, k < nf → i < oh → j < ow → y (k * (oh * ow) + i * ow + j) = g k i j

end Spec

/-- A layer object with the geometry `h x w` images, `pn` input and `nf` output channels, window `sp`, stride `st`, padding `pd`, such that
a window fits, as the constructor makes it. The last two bounds keep the sizes within `int`. -/
structure Conv.Geo (c : Conv) (h w pn nf sp st pd : Nat) : Prop where
  eh : c.inputheight = h
  ew : c.inputwidth = w
  es : c.inputsize = (w * h : Nat)
  eoh : c.outputheight = Spec.outLen h sp st pd
  eow : c.outputwidth = Spec.outLen w sp st pd
  eos : c.outputsize = (Spec.outLen w sp st pd * Spec.outLen h sp st pd : Nat)
  epn : c.pnfilter = pn
  enf : c.nfilter = nf
  esp : c.spatial = sp
  est : c.stride = st
  epd : c.padding = pd
  hh : 0 < h
  hw : 0 < w
  hpn : 0 < pn
  hnf : 0 < nf
  hsp : 0 < sp
  hst : 0 < st
  fh : sp ≤ h + 2 * pd
  fw : sp ≤ w + 2 * pd
  bh : h + 2 * pd < 2 ^ 31
  bw : w + 2 * pd < 2 ^ 31

end
end Nnet.NN
