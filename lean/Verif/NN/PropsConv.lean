import Verif.NN.PoolLemmas
/-!
# C47 convolution forward, C48 rows of a batch, C50 copies, C51 max pooling, C52 mean pooling
-/
namespace Nnet.NN
open Finset
noncomputable section

/-- What `toimage` makes of a batch: the samples are interleaved. Entry `n` of the one sample that the layer then uses for every row of the
batch. For a batch of one row this is the row itself (`mixed_one`). -/
def mixed (pa : Mat ℝ) (size : Nat) (n : Nat) : ℝ := pa.f (n % size % pa.nr) (n / size * size + n % size / pa.nr)

theorem mixed_one {pa : Mat ℝ} (h1 : pa.nr = 1) (size n : Nat) : mixed pa size n = pa.f 0 n := by
  unfold mixed
  rw [h1, Nat.mod_one, Nat.div_one, Nat.div_add_mod']

theorem padPix_eq {pa : Mat ℝ} {h w pd j r c : Nat} (_hh : 0 < h) : Conv.padPix pa h w pd j r c = Spec.pixel h w pd (mixed pa (h * w)) j r c := by
  unfold Conv.padPix Spec.pixel
  by_cases hc : pd ≤ r ∧ r < pd + h ∧ pd ≤ c ∧ c < pd + w
  · rw [if_pos hc, if_pos hc]
    unfold Conv.rawPix mixed
    have hlt : (c - pd) * h + (r - pd) < h * w := by
      calc (c - pd) * h + (r - pd) < (c - pd) * h + h := by omega
        _ = h * (c - pd + 1) := by ring
        _ ≤ h * w := Nat.mul_le_mul_left _ (by omega)
    have e1 : (j * (h * w) + (c - pd) * h + (r - pd)) % (h * w) = (c - pd) * h + (r - pd) := by
      rw [Nat.add_assoc, Nat.add_comm, Nat.add_mul_mod_self_right, Nat.mod_eq_of_lt hlt]
    have e2 : (j * (h * w) + (c - pd) * h + (r - pd)) / (h * w) = j := by
      rw [Nat.add_assoc, Nat.add_comm, Nat.add_mul_div_right _ _ (by omega), Nat.div_eq_of_lt hlt, Nat.zero_add]
    rw [e1, e2, Nat.mul_comm w h, Nat.add_comm (r - pd)]
  · rw [if_neg hc, if_neg hc]

theorem pixel_outside {h w pd : Nat} {x : Nat → ℝ} {j r c : Nat} (hc : ¬ (r < h + 2 * pd ∧ c < w + 2 * pd)) : Spec.pixel h w pd x j r c = 0 := by
  unfold Spec.pixel
  rw [if_neg (by omega)]

theorem padImg_f {pa : Mat ℝ} {h w pd j r c : Nat} (hh : 0 < h) : (Conv.padImg pa h w pd j).f r c = Spec.pixel h w pd (mixed pa (h * w)) j r c := by
  unfold Conv.padImg
  rw [Mat.of_f]
  split
  · exact padPix_eq hh
  · rename_i hc; rw [pixel_outside hc]

/-- The value at `(k, i, j)` of a row that is given by channel, row and column. -/
theorem maps_index {oh ow k i j : Nat} (hi : i < oh) (hj : j < ow) :
    (k * (oh * ow) + i * ow + j) / (oh * ow) = k ∧ (k * (oh * ow) + i * ow + j) % (oh * ow) / ow = i ∧
      (k * (oh * ow) + i * ow + j) % (oh * ow) % ow = j := by
  have hlt := row_lt hi hj
  rw [Nat.add_assoc, (row_div_mod hlt).1, (row_div_mod hlt).2, (row_div_mod hj).1, (row_div_mod hj).2]
  exact ⟨rfl, rfl, rfl⟩

theorem maps_lt {oh ow nf k i j : Nat} (hk : k < nf) (hi : i < oh) (hj : j < ow) : k * (oh * ow) + i * ow + j < oh * ow * nf := by
  rw [Nat.add_assoc, Nat.mul_comm (oh * ow) nf]
  exact row_lt hk (row_lt hi hj)

/-! ## C47 -/

/-- The constructor makes a layer of the given geometry, with one `spatial x spatial` kernel for every pair of channels. -/
theorem C47_constructor (dist : Draws) (junk : Nat → Nat → ℝ) {h w pn nf sp st pd : Nat} (lrate : ℝ) (act : ActFunc ℝ) (hh : 0 < h) (hw : 0 < w)
    (hpn : 0 < pn) (hnf : 0 < nf) (hsp : 0 < sp) (hst : 0 < st) (fh : sp ≤ h + 2 * pd) (fw : sp ≤ w + 2 * pd) (bh : h + 2 * pd < 2 ^ 31)
    (bw : w + 2 * pd < 2 ^ 31) :
    ∃ L c, Conv.new dist junk w h pn nf sp st pd lrate act = .ok (L, c) ∧ c.Geo h w pn nf sp st pd ∧ L.W.nr = sp * pn ∧ L.W.nc = sp * nf ∧
      L.actfunc = act := by
  obtain ⟨L, c, h1, h2, h3, h4, _, _, h5, _, _⟩ := Conv.new_geo dist junk lrate act hh hw hpn hnf hsp hst fh fw bh bw
  exact ⟨L, c, h1, h2, h3, h4, h5⟩

/-- What the forward pass computes, for every geometry, stride and batch: position `(i, j)` holds the window at `(i, j)` when both are
multiples of the stride, and otherwise whatever the memory contained (once for each input channel). -/
theorem C47_exact (junk : Nat → Nat → ℝ) {L : Layer} {c : Conv} {h w pn nf sp st pd : Nat} (G : c.Geo h w pn nf sp st pd) {x : Mat ℝ}
    (hm : 0 < x.nr) (hc : pn * (w * h) ≤ x.nc) (hr : L.W.nr = sp * pn) (hcc : L.W.nc = sp * nf) {oh ow : Nat}
    (hoh : oh = Spec.outLen h sp st pd) (how : ow = Spec.outLen w sp st pd) :
    ∃ y L' c', Conv.forwardprop junk L c x = .ok (y, L', c') ∧ y.nr = x.nr ∧ y.nc = nf * (oh * ow) ∧
      ∀ r, r < x.nr → Spec.IsMaps oh ow nf (y.f r) (fun k i j => L.actfunc.act (if st ∣ i ∧ st ∣ j then
        ∑ q ∈ range pn, ∑ u ∈ range sp, ∑ v ∈ range sp, Spec.pixel h w pd (mixed x (h * w)) q (i + u) (j + v) * L.W.f (q * sp + u) (k * sp + v)
        else pn * junk 0 (i * ow + j))) := by
  obtain ⟨A, hA, hf⟩ := Conv.forward_ok junk G hm hc hr hcc hoh how rfl
  refine ⟨_, _, _, hf, by rw [hA]; rfl, by rw [hA]; exact Nat.mul_comm _ _, ?_⟩
  intro r hrr k i j hk hi hj
  have hlt := maps_lt hk hi hj
  obtain ⟨m1, m2, m3⟩ := maps_index (k := k) hi hj
  unfold funcop
  rw [Mat.map_f' (by rw [hA]; exact hrr) (by rw [hA]; exact hlt), hA, Mat.of_f' hrr hlt]
  congr 1
  rw [m1, m2, m3]
  by_cases hd : st ∣ i ∧ st ∣ j
  · simp only [if_pos hd]
    refine sum_congr rfl fun q _ => sum_congr rfl fun u _ => sum_congr rfl fun v _ => ?_
    rw [padImg_f G.hh]
  · simp only [if_neg hd]
    rw [sum_const, card_range, nsmul_eq_mul, Nat.add_assoc, (row_div_mod (row_lt hi hj)).2]

/-- The property for stride 1 and one sample. Missing: strides above 1 and batches, for which it is false (`C47_refuted`, `C48_refuted`). -/
theorem C47_forward_partial (junk : Nat → Nat → ℝ) {L : Layer} {c : Conv} {h w pn nf sp pd : Nat} (G : c.Geo h w pn nf sp 1 pd) {x : Mat ℝ}
    (hm : x.nr = 1) (hc : pn * (w * h) ≤ x.nc) (hr : L.W.nr = sp * pn) (hcc : L.W.nc = sp * nf) :
    ∃ y L' c', Conv.forwardprop junk L c x = .ok (y, L', c') ∧ y.nr = 1 ∧ y.nc = nf * (Spec.outLen h sp 1 pd * Spec.outLen w sp 1 pd) ∧
      Spec.IsMaps (Spec.outLen h sp 1 pd) (Spec.outLen w sp 1 pd) nf (y.f 0) (fun k i j => L.actfunc.act (Spec.conv h w pn sp 1 pd L.W (x.f 0) k i j)) := by
  obtain ⟨y, L', c', h1, h2, h3, h4⟩ := C47_exact junk G (by omega) hc hr hcc rfl rfl
  refine ⟨y, L', c', h1, h2.trans hm, h3, ?_⟩
  intro k i j hk hi hj
  refine (h4 0 (by omega) k i j hk hi hj).trans ?_
  simp only
  rw [if_pos ⟨one_dvd _, one_dvd _⟩]
  unfold Spec.conv
  congr 1
  refine sum_congr rfl fun q _ => sum_congr rfl fun u _ => sum_congr rfl fun v _ => ?_
  rw [Nat.mul_one, Nat.mul_one]
  congr 2
  funext n
  exact mixed_one hm _ n

/-- With a stride above 1 and more than one output column, position `(0, 1)` of every output channel does not depend on the image or the
weights at all. -/
theorem C47_stride (junk : Nat → Nat → ℝ) {L : Layer} {c : Conv} {h w pn nf sp st pd : Nat} (G : c.Geo h w pn nf sp st pd) {x : Mat ℝ}
    (hm : 0 < x.nr) (hc : pn * (w * h) ≤ x.nc) (hr : L.W.nr = sp * pn) (hcc : L.W.nc = sp * nf) (h2 : 2 ≤ st) (how : 2 ≤ Spec.outLen w sp st pd) :
    ∃ y L' c', Conv.forwardprop junk L c x = .ok (y, L', c') ∧ ∀ r k, r < x.nr → k < nf →
      y.f r (k * (Spec.outLen h sp st pd * Spec.outLen w sp st pd) + 0 * Spec.outLen w sp st pd + 1) = L.actfunc.act (pn * junk 0 1) := by
  obtain ⟨y, L', c', h1, _, _, h4⟩ := C47_exact junk G hm hc hr hcc rfl rfl
  refine ⟨y, L', c', h1, fun r k hr' hk => ?_⟩
  refine (h4 r hr' k 0 1 hk (Conv.outLen_pos _ _ _ _) (by omega)).trans ?_
  simp only
  rw [if_neg]
  · simp
  · rintro ⟨_, hd⟩
    have := Nat.le_of_dvd (by omega) hd
    omega

/-- The full property is false for every layer with a stride above 1 and more than one output column: with all weights 0 and the identity
activation the convolution is 0 everywhere, the output need not be. -/
theorem C47_refuted {L : Layer} {c : Conv} {h w pn nf sp st pd : Nat} (G : c.Geo h w pn nf sp st pd) (hr : L.W.nr = sp * pn) (hcc : L.W.nc = sp * nf)
    (h2 : 2 ≤ st) (how : 2 ≤ Spec.outLen w sp st pd) (hW : ∀ i j, L.W.f i j = 0) (hact : L.actfunc.act = id) {x : Mat ℝ} (hm : x.nr = 1)
    (hc : pn * (w * h) ≤ x.nc) :
    ∃ junk, ¬ ∃ y L' c', Conv.forwardprop junk L c x = .ok (y, L', c') ∧
      Spec.IsMaps (Spec.outLen h sp st pd) (Spec.outLen w sp st pd) nf (y.f 0) (fun k i j => L.actfunc.act (Spec.conv h w pn sp st pd L.W (x.f 0) k i j)) := by
  refine ⟨fun _ _ => 1, ?_⟩
  rintro ⟨y, L', c', h1, h3⟩
  obtain ⟨y2, L2, c2, h4, h5⟩ := C47_stride (fun _ _ => 1) G (by omega) hc hr hcc h2 how
  rw [h1] at h4
  injection h4 with h4
  obtain ⟨rfl, -⟩ := Prod.mk.inj h4
  have e1 := h5 0 0 (by omega) G.hnf
  rw [h3 0 0 1 G.hnf (Conv.outLen_pos _ _ _ _) (by omega), hact] at e1
  have e2 : Spec.conv h w pn sp st pd L.W (x.f 0) 0 0 1 = 0 := by
    unfold Spec.conv
    simp [hW]
  simp only [e2, id, mul_one] at e1
  have := G.hpn
  have h6 : (pn : ℝ) = 0 := e1.symm
  norm_cast at h6
  omega

/-- Inputs are read column by column and outputs written row by row: a `1 x 1` kernel with weight 1 and the identity activation, stride 1, no
padding, turns the input image into the transposed one. -/
theorem C47_layout (junk : Nat → Nat → ℝ) {L : Layer} {c : Conv} {h w : Nat} (G : c.Geo h w 1 1 1 1 0) (hr : L.W.nr = 1) (hcc : L.W.nc = 1)
    (hW : L.W.f 0 0 = 1) (hact : L.actfunc.act = id) {x : Mat ℝ} (hm : x.nr = 1) (hc : w * h ≤ x.nc) :
    ∃ y L' c', Conv.forwardprop junk L c x = .ok (y, L', c') ∧ y.nc = h * w ∧ ∀ i j, i < h → j < w → y.f 0 (i * w + j) = x.f 0 (j * h + i) := by
  obtain ⟨y, L', c', h1, h2, h3, h4⟩ := C47_forward_partial junk G hm (by omega) (by omega) (by omega)
  have eh : Spec.outLen h 1 1 0 = h := by have := G.hh; unfold Spec.outLen; rw [Nat.div_one]; omega
  have ew : Spec.outLen w 1 1 0 = w := by have := G.hw; unfold Spec.outLen; rw [Nat.div_one]; omega
  rw [eh, ew] at h3 h4
  refine ⟨y, L', c', h1, by omega, fun i j hi hj => ?_⟩
  have := h4 0 i j (by omega) hi hj
  rw [Nat.zero_mul, Nat.zero_add] at this
  rw [this, hact]
  unfold Spec.conv Spec.pixel
  simp [hi, hj, hW]

/-- The hypotheses are met: 5 x 4 images of 3 channels, two 3 x 3 filters, stride 1, padding 1. -/
example (dist : Draws) (junk : Nat → Nat → ℝ) : ∃ L c, Conv.new dist junk 4 5 3 2 3 1 1 0 Act.identity = .ok (L, c) ∧ c.Geo 5 4 3 2 3 1 1 ∧ L.W.nr = 9 ∧
    L.W.nc = 6 := by
  obtain ⟨L, c, h1, h2, h3, h4, _⟩ := C47_constructor dist junk (h := 5) (w := 4) (pn := 3) (nf := 2) (sp := 3) (st := 1) (pd := 1) 0 Act.identity
    (by norm_num) (by norm_num) (by norm_num) (by norm_num) (by norm_num) (by norm_num) (by norm_num) (by norm_num) (by norm_num) (by norm_num)
  exact ⟨L, c, h1, h2, h3, h4⟩

/-- The hypotheses of `C47_refuted` are met: 1 x 3 images, 1 x 1 window, stride 2. -/
example : ∃ (L : Layer) (c : Conv), c.Geo 1 3 1 1 1 2 0 ∧ L.W.nr = 1 * 1 ∧ L.W.nc = 1 * 1 ∧ 2 ≤ Spec.outLen 3 1 2 0 ∧ (∀ i j, L.W.f i j = 0) ∧ L.actfunc.act = id := by
  obtain ⟨L, c, h1, h2, h3, h4, h5⟩ := C47_constructor (fun _ _ => 0) (fun _ _ => 0) (h := 1) (w := 3) (pn := 1) (nf := 1) (sp := 1) (st := 2) (pd := 0) 0
    Act.identity (by norm_num) (by norm_num) (by norm_num) (by norm_num) (by norm_num) (by norm_num) (by norm_num) (by norm_num) (by norm_num) (by norm_num)
  refine ⟨{ L with W := Mat.of 1 1 (fun _ _ => 0) }, c, h2, rfl, rfl, by unfold Spec.outLen; norm_num, fun i j => ?_, ?_⟩
  · simp [Mat.of_f]
  · simp only [h5]; rfl

/-! ## C51, C52 -/

theorem windowMax_max0 {h w sp : Nat} {x : Mat ℝ} {y : Nat → ℝ} {k i j : Nat} (hsp : 0 < sp) (hx : ∀ r c, x.f r c = Spec.pixel h w 0 y k r c) :
    ∃ M, Spec.IsWindowMax h w sp 1 y k i j M ∧ max0 x sp i j = max 0 M := by
  have hne : (range sp ×ˢ range sp).Nonempty := ⟨(0, 0), by simp [hsp]⟩
  obtain ⟨p, hp, hmax⟩ := Finset.exists_max_image (range sp ×ˢ range sp) (fun p => Spec.pixel h w 0 y k (i * 1 + p.1) (j * 1 + p.2)) hne
  simp only [mem_product, mem_range] at hp hmax
  refine ⟨Spec.pixel h w 0 y k (i * 1 + p.1) (j * 1 + p.2), ⟨fun u v hu hv => hmax (u, v) ⟨hu, hv⟩, p.1, p.2, hp.1, hp.2, rfl⟩, ?_⟩
  apply le_antisymm
  · rw [max0_le]
    refine ⟨le_max_left _ _, fun u v hu hv => ?_⟩
    rw [hx]
    refine le_trans ?_ (le_max_right _ _)
    have := hmax (u, v) ⟨hu, hv⟩
    simpa using this
  · apply max_le
    · rw [le_max0]; exact Or.inl (le_refl _)
    · rw [le_max0]
      refine Or.inr ⟨p.1, p.2, hp.1, hp.2, ?_⟩
      rw [hx]
      simp

/-- What max pooling computes, for every geometry and batch: *every* output channel at `(i, j)` holds the sum over all channels of the larger of
0 and the maximum of the window at `(i, j)`, whatever the stride. -/
theorem C51_exact (junk : Nat → Nat → ℝ) {L : Layer} {c : Conv} {h w nf sp st : Nat} (G : c.Geo h w nf nf sp st 0) (hact : L.actfunc.act = id) {x : Mat ℝ}
    (hm : 0 < x.nr) (hc : nf * (w * h) ≤ x.nc) {oh ow : Nat} (hoh : oh = Spec.outLen h sp st 0) (how : ow = Spec.outLen w sp st 0) :
    ∃ y L' c' idx, MaxPool.forwardprop junk L c x = .ok (y, L', c', idx) ∧ y.nr = x.nr ∧ y.nc = nf * (oh * ow) ∧
      ∃ M : Nat → Nat → Nat → ℝ, (∀ q i j, q < nf → i < oh → j < ow → Spec.IsWindowMax h w sp 1 (mixed x (h * w)) q i j (M q i j)) ∧
        ∀ r, r < x.nr → Spec.IsMaps oh ow nf (y.f r) (fun _ i j => ∑ q ∈ range nf, max 0 (M q i j)) := by
  obtain ⟨A, idx, hA, hf⟩ := MaxPool.forward_ok (L := L) junk G hm hc hoh how rfl
  refine ⟨_, _, _, _, hf, by rw [hA]; rfl, by rw [hA]; exact Nat.mul_comm _ _, ?_⟩
  have hex : ∀ q i j, ∃ M, Spec.IsWindowMax h w sp 1 (mixed x (h * w)) q i j M ∧ max0 (Conv.padImg x h w 0 q) sp i j = max 0 M :=
    fun q i j => windowMax_max0 G.hsp (fun r c => padImg_f G.hh)
  choose M hM1 hM2 using hex
  refine ⟨M, fun q i j _ _ _ => hM1 q i j, ?_⟩
  intro r hr k i j hk hi hj
  have hlt := maps_lt hk hi hj
  obtain ⟨_, m2, m3⟩ := maps_index (k := k) hi hj
  unfold funcop
  rw [Mat.map_f' (by rw [hA]; exact hr) (by rw [hA]; exact hlt), hA, Mat.of_f' hr hlt, hact, m2, m3]
  exact sum_congr rfl fun q _ => hM2 q i j

/-- The property for one channel, stride 1, one sample and images without negative pixels. Missing: everything else, where it is false
(`C51_refuted_negative`, `C51_refuted_channels`, `C51_refuted_stride`). -/
theorem C51_maxpool_partial (junk : Nat → Nat → ℝ) {L : Layer} {c : Conv} {h w sp : Nat} (G : c.Geo h w 1 1 sp 1 0) (hact : L.actfunc.act = id) {x : Mat ℝ}
    (hm : x.nr = 1) (hc : w * h ≤ x.nc) (h0 : ∀ n, 0 ≤ x.f 0 n) :
    ∃ y L' c' idx, MaxPool.forwardprop junk L c x = .ok (y, L', c', idx) ∧ y.nr = 1 ∧ y.nc = Spec.outLen h sp 1 0 * Spec.outLen w sp 1 0 ∧
      ∀ i j, i < Spec.outLen h sp 1 0 → j < Spec.outLen w sp 1 0 → Spec.IsWindowMax h w sp 1 (x.f 0) 0 i j (y.f 0 (i * Spec.outLen w sp 1 0 + j)) := by
  obtain ⟨y, L', c', idx, h1, h2, h3, M, hM, h4⟩ := C51_exact junk G hact (x := x) (by omega) (by rw [Nat.one_mul]; exact hc) rfl rfl
  refine ⟨y, L', c', idx, h1, by omega, by rw [h3, Nat.one_mul], fun i j hi hj => ?_⟩
  have e := h4 0 (by omega) 0 i j (by omega) hi hj
  have hM' := hM 0 i j (by omega) hi hj
  have hmx : mixed x (h * w) = x.f 0 := by funext n; exact mixed_one hm _ n
  rw [hmx] at hM'
  simp only [Nat.zero_mul, Nat.zero_add, sum_range_one] at e
  rw [e, max_eq_right]
  · exact hM'
  · obtain ⟨_, u, v, _, _, e2⟩ := hM'
    rw [e2]
    unfold Spec.pixel
    split
    · exact h0 _
    · exact le_refl _

/-- A max pooling layer for `1 x w` images with a window of one pixel: the expected output at `(k, 0, j)` is the pixel itself. -/
theorem maxpool_line (junk : Nat → Nat → ℝ) {w nf st : Nat} (hw : 0 < w) (hb : w < 2 ^ 31) (hnf : 0 < nf) (hst : 0 < st) (x : Nat → ℝ) :
    ∃ L c, MaxPool.new (fun _ _ => 0) junk w 1 nf 1 st = .ok (L, c) ∧ ∃ y L' c' idx,
      MaxPool.forwardprop junk L c (Mat.of 1 (nf * w) (fun _ n => x n)) = .ok (y, L', c', idx) ∧
      ∀ k j, k < nf → j < Spec.outLen w 1 st 0 → y.f 0 (k * Spec.outLen w 1 st 0 + j) = ∑ q ∈ range nf, max 0 (x (q * w + j)) := by
  obtain ⟨L, c, h1, h2, _, _, h5⟩ := C47_constructor (fun _ _ => 0) junk (h := 1) (w := w) (pn := nf) (nf := nf) (sp := 1) (st := st) (pd := 0) 0
    Act.identity (by norm_num) hw hnf hnf (by norm_num) hst (by norm_num) (by omega) (by norm_num) (by omega)
  refine ⟨L, c, h1, ?_⟩
  have e1 : Spec.outLen 1 1 st 0 = 1 := by unfold Spec.outLen; simp
  obtain ⟨y, L', c', idx, h6, h7, h8, M, hM, h9⟩ := C51_exact (L := L) junk h2 (by rw [h5]; rfl) (x := Mat.of 1 (nf * w) (fun _ n => x n)) (by show 0 < 1; omega)
    (by simp) rfl rfl
  refine ⟨y, L', c', idx, h6, fun k j hk hj => ?_⟩
  have e := h9 0 (by show 0 < 1; omega) k 0 j hk (by rw [e1]; omega) hj
  rw [e1] at e
  simp only [Nat.one_mul, Nat.zero_mul, Nat.add_zero] at e
  rw [e]
  refine sum_congr rfl fun q hq => ?_
  obtain ⟨_, u, v, hu, hv, e2⟩ := hM q 0 j (mem_range.1 hq) (by rw [e1]; omega) hj
  rw [e2]
  have hjw : j < w := lt_of_lt_of_le hj (by unfold Spec.outLen; have := Nat.div_le_self (w + 2 * 0 - 1) st; omega)
  have hu0 : u = 0 := by omega
  have hv0 : v = 0 := by omega
  subst hu0 hv0
  unfold Spec.pixel
  rw [if_pos (by omega), mixed_one rfl]
  have hlt : q * w + j < nf * w := row_lt (mem_range.1 hq) hjw
  rw [Mat.of_f' (by omega) (by simpa using hlt)]
  simp

/-- False for negative pixels: the maximum of a single pixel -1 is reported as 0. -/
theorem C51_refuted_negative (junk : Nat → Nat → ℝ) : ∃ L c x y L' c' idx, MaxPool.new (fun _ _ => 0) junk 1 1 1 1 1 = .ok (L, c) ∧
    MaxPool.forwardprop junk L c x = .ok (y, L', c', idx) ∧ x.nr = 1 ∧ ¬ Spec.IsWindowMax 1 1 1 1 (x.f 0) 0 0 0 (y.f 0 0) := by
  obtain ⟨L, c, h1, y, L', c', idx, h2, h3⟩ := maxpool_line junk (w := 1) (nf := 1) (st := 1) (by norm_num) (by norm_num) (by norm_num) (by norm_num) (fun _ => -1)
  refine ⟨L, c, _, y, L', c', idx, h1, h2, rfl, ?_⟩
  have e := h3 0 0 (by omega) (by unfold Spec.outLen; norm_num)
  simp only [Nat.zero_mul, Nat.add_zero, sum_range_one] at e
  rw [e]
  rintro ⟨-, u, v, hu, hv, e2⟩
  have hu0 : u = 0 := by omega
  have hv0 : v = 0 := by omega
  subst hu0 hv0
  simp [Spec.pixel, Mat.of_f] at e2

/-- False for two channels: with single-pixel channels 1 and 2, both outputs are 3. -/
theorem C51_refuted_channels (junk : Nat → Nat → ℝ) : ∃ L c x y L' c' idx, MaxPool.new (fun _ _ => 0) junk 1 1 2 1 1 = .ok (L, c) ∧
    MaxPool.forwardprop junk L c x = .ok (y, L', c', idx) ∧ x.nr = 1 ∧ (∀ n, 0 ≤ x.f 0 n) ∧ ¬ Spec.IsWindowMax 1 1 1 1 (x.f 0) 0 0 0 (y.f 0 0) := by
  obtain ⟨L, c, h1, y, L', c', idx, h2, h3⟩ := maxpool_line junk (w := 1) (nf := 2) (st := 1) (by norm_num) (by norm_num) (by norm_num) (by norm_num) (fun n => n + 1)
  refine ⟨L, c, _, y, L', c', idx, h1, h2, rfl, ?_, ?_⟩
  · intro n
    rw [Mat.of_f]
    split
    · positivity
    · exact le_refl _
  have e := h3 0 0 (by omega) (by unfold Spec.outLen; norm_num)
  simp only [Nat.zero_mul, Nat.add_zero, sum_range_succ, sum_range_zero] at e
  rw [e]
  rintro ⟨-, u, v, hu, hv, e2⟩
  have hu0 : u = 0 := by omega
  have hv0 : v = 0 := by omega
  subst hu0 hv0
  simp only [Spec.pixel, Mat.of_f] at e2
  norm_num at e2

/-- False for stride 2: with the image 1 2 3, the second output is 2 and not 3. -/
theorem C51_refuted_stride (junk : Nat → Nat → ℝ) : ∃ L c x y L' c' idx, MaxPool.new (fun _ _ => 0) junk 3 1 1 1 2 = .ok (L, c) ∧
    MaxPool.forwardprop junk L c x = .ok (y, L', c', idx) ∧ x.nr = 1 ∧ (∀ n, 0 ≤ x.f 0 n) ∧ ¬ Spec.IsWindowMax 1 3 1 2 (x.f 0) 0 0 1 (y.f 0 1) := by
  obtain ⟨L, c, h1, y, L', c', idx, h2, h3⟩ := maxpool_line junk (w := 3) (nf := 1) (st := 2) (by norm_num) (by norm_num) (by norm_num) (by norm_num) (fun n => n + 1)
  refine ⟨L, c, _, y, L', c', idx, h1, h2, rfl, ?_, ?_⟩
  · intro n
    rw [Mat.of_f]
    split
    · positivity
    · exact le_refl _
  have e := h3 0 1 (by omega) (by unfold Spec.outLen; norm_num)
  simp only [Nat.zero_mul, Nat.zero_add, sum_range_one] at e
  rw [e]
  rintro ⟨-, u, v, hu, hv, e2⟩
  have hu0 : u = 0 := by omega
  have hv0 : v = 0 := by omega
  subst hu0 hv0
  simp only [Spec.pixel, Mat.of_f] at e2
  norm_num at e2

/-- What mean pooling computes, for every geometry and batch: *every* output channel at `(i, j)` holds the sum over all channels of the mean of the
window at `(i, j)`, whatever the stride. -/
theorem C52_exact (junk : Nat → Nat → ℝ) {L : Layer} {c : Conv} {h w nf sp st : Nat} (G : c.Geo h w nf nf sp st 0) (hact : L.actfunc.act = id) {x : Mat ℝ}
    (hm : 0 < x.nr) (hc : nf * (w * h) ≤ x.nc) {oh ow : Nat} (hoh : oh = Spec.outLen h sp st 0) (how : ow = Spec.outLen w sp st 0) :
    ∃ y L' c', MeanPool.forwardprop junk L c x = .ok (y, L', c') ∧ y.nr = x.nr ∧ y.nc = nf * (oh * ow) ∧
      ∀ r, r < x.nr → Spec.IsMaps oh ow nf (y.f r) (fun _ i j => ∑ q ∈ range nf, Spec.windowMean h w sp 1 (mixed x (h * w)) q i j) := by
  obtain ⟨A, hA, hf⟩ := MeanPool.forward_ok (L := L) junk G hm hc hoh how rfl
  refine ⟨_, _, _, hf, by rw [hA]; rfl, by rw [hA]; exact Nat.mul_comm _ _, ?_⟩
  intro r hr k i j hk hi hj
  have hlt := maps_lt hk hi hj
  obtain ⟨_, m2, m3⟩ := maps_index (k := k) hi hj
  unfold funcop
  rw [Mat.map_f' (by rw [hA]; exact hr) (by rw [hA]; exact hlt), hA, Mat.of_f' hr hlt, hact, m2, m3]
  refine sum_congr rfl fun q _ => ?_
  unfold mean0 Spec.windowMean
  rw [div_div]
  congr 1
  · refine sum_congr rfl fun u _ => sum_congr rfl fun v _ => ?_
    rw [padImg_f G.hh, Nat.mul_one, Nat.mul_one]
  · push_cast; rfl

/-- The property for one channel, stride 1 and one sample. Missing: everything else, where it is false (`C52_refuted_channels`, `C52_refuted_stride`). -/
theorem C52_meanpool_partial (junk : Nat → Nat → ℝ) {L : Layer} {c : Conv} {h w sp : Nat} (G : c.Geo h w 1 1 sp 1 0) (hact : L.actfunc.act = id) {x : Mat ℝ}
    (hm : x.nr = 1) (hc : w * h ≤ x.nc) :
    ∃ y L' c', MeanPool.forwardprop junk L c x = .ok (y, L', c') ∧ y.nr = 1 ∧ y.nc = Spec.outLen h sp 1 0 * Spec.outLen w sp 1 0 ∧
      ∀ i j, i < Spec.outLen h sp 1 0 → j < Spec.outLen w sp 1 0 → y.f 0 (i * Spec.outLen w sp 1 0 + j) = Spec.windowMean h w sp 1 (x.f 0) 0 i j := by
  obtain ⟨y, L', c', h1, h2, h3, h4⟩ := C52_exact junk G hact (x := x) (by omega) (by rw [Nat.one_mul]; exact hc) rfl rfl
  refine ⟨y, L', c', h1, by omega, by rw [h3, Nat.one_mul], fun i j hi hj => ?_⟩
  have e := h4 0 (by omega) 0 i j (by omega) hi hj
  have hmx : mixed x (h * w) = x.f 0 := by funext n; exact mixed_one hm _ n
  rw [hmx] at e
  simp only [Nat.zero_mul, Nat.zero_add, sum_range_one] at e
  exact e

/-- A mean pooling layer for `1 x w` images with a window of one pixel. -/
theorem meanpool_line (junk : Nat → Nat → ℝ) {w nf st : Nat} (hw : 0 < w) (hb : w < 2 ^ 31) (hnf : 0 < nf) (hst : 0 < st) (x : Nat → ℝ) :
    ∃ L c, MeanPool.new (fun _ _ => 0) junk w 1 nf 1 st = .ok (L, c) ∧ ∃ y L' c',
      MeanPool.forwardprop junk L c (Mat.of 1 (nf * w) (fun _ n => x n)) = .ok (y, L', c') ∧
      ∀ k j, k < nf → j < Spec.outLen w 1 st 0 → y.f 0 (k * Spec.outLen w 1 st 0 + j) = ∑ q ∈ range nf, x (q * w + j) := by
  obtain ⟨L, c, h1, h2, _, _, h5⟩ := C47_constructor (fun _ _ => 0) junk (h := 1) (w := w) (pn := nf) (nf := nf) (sp := 1) (st := st) (pd := 0) 0
    Act.identity (by norm_num) hw hnf hnf (by norm_num) hst (by norm_num) (by omega) (by norm_num) (by omega)
  refine ⟨L, c, h1, ?_⟩
  have e1 : Spec.outLen 1 1 st 0 = 1 := by unfold Spec.outLen; simp
  obtain ⟨y, L', c', h6, h7, h8, h9⟩ := C52_exact (L := L) junk h2 (by rw [h5]; rfl) (x := Mat.of 1 (nf * w) (fun _ n => x n)) (by show 0 < 1; omega)
    (by simp) rfl rfl
  refine ⟨y, L', c', h6, fun k j hk hj => ?_⟩
  have e := h9 0 (by show 0 < 1; omega) k 0 j hk (by rw [e1]; omega) hj
  rw [e1] at e
  simp only [Nat.one_mul, Nat.zero_mul, Nat.add_zero] at e
  rw [e]
  refine sum_congr rfl fun q hq => ?_
  have hjw : j < w := lt_of_lt_of_le hj (by unfold Spec.outLen; have := Nat.div_le_self (w + 2 * 0 - 1) st; omega)
  have hlt : q * w + j < nf * w := row_lt (mem_range.1 hq) hjw
  unfold Spec.windowMean
  simp only [sum_range_one]
  unfold Spec.pixel
  rw [if_pos (by omega), mixed_one rfl, Mat.of_f' (by omega) (by simpa using hlt)]
  simp

/-- False for two channels: with single-pixel channels 1 and 2, both outputs are 3. -/
theorem C52_refuted_channels (junk : Nat → Nat → ℝ) : ∃ L c x y L' c', MeanPool.new (fun _ _ => 0) junk 1 1 2 1 1 = .ok (L, c) ∧
    MeanPool.forwardprop junk L c x = .ok (y, L', c') ∧ x.nr = 1 ∧ y.f 0 0 ≠ Spec.windowMean 1 1 1 1 (x.f 0) 0 0 0 := by
  obtain ⟨L, c, h1, y, L', c', h2, h3⟩ := meanpool_line junk (w := 1) (nf := 2) (st := 1) (by norm_num) (by norm_num) (by norm_num) (by norm_num) (fun n => n + 1)
  refine ⟨L, c, _, y, L', c', h1, h2, rfl, ?_⟩
  have e := h3 0 0 (by omega) (by unfold Spec.outLen; norm_num)
  simp only [Nat.zero_mul, Nat.add_zero, sum_range_succ, sum_range_zero] at e
  rw [e]
  simp only [Spec.windowMean, Spec.pixel, Mat.of_f, sum_range_one]
  norm_num

/-- False for stride 2: with the image 1 2 3, the second output is 2 and not 3. -/
theorem C52_refuted_stride (junk : Nat → Nat → ℝ) : ∃ L c x y L' c', MeanPool.new (fun _ _ => 0) junk 3 1 1 1 2 = .ok (L, c) ∧
    MeanPool.forwardprop junk L c x = .ok (y, L', c') ∧ x.nr = 1 ∧ y.f 0 1 ≠ Spec.windowMean 1 3 1 2 (x.f 0) 0 0 1 := by
  obtain ⟨L, c, h1, y, L', c', h2, h3⟩ := meanpool_line junk (w := 3) (nf := 1) (st := 2) (by norm_num) (by norm_num) (by norm_num) (by norm_num) (fun n => n + 1)
  refine ⟨L, c, _, y, L', c', h1, h2, rfl, ?_⟩
  have e := h3 0 1 (by omega) (by unfold Spec.outLen; norm_num)
  simp only [Nat.zero_mul, Nat.zero_add, sum_range_one] at e
  rw [e]
  simp only [Spec.windowMean, Spec.pixel, Mat.of_f, sum_range_one]
  norm_num

/-! ## C48 -/

/-- Each row of the output of `f` is the output of `f` for that row alone. -/
def Spec.RowsIndependent (f : Mat ℝ → Res (Mat ℝ)) : Prop :=
  ∀ x y, f x = .ok y → ∀ r, r < x.nr → ∃ y', f (Mat.of 1 x.nc (fun _ n => x.f r n)) = .ok y' ∧ ∀ n, y.f r n = y'.f 0 n

/-- The single sample the layers use in place of a batch. -/
def mixedRow (x : Mat ℝ) (size : Nat) : Mat ℝ := Mat.of 1 x.nc (fun _ n => mixed x size n)

/-- All rows of a batch output of a convolution layer are equal, and equal to the output for the one sample that interleaves the batch: for every
geometry, stride and batch. -/
theorem C48_conv (junk : Nat → Nat → ℝ) {L : Layer} {c : Conv} {h w pn nf sp st pd : Nat} (G : c.Geo h w pn nf sp st pd) {x : Mat ℝ}
    (hm : 0 < x.nr) (hc : pn * (w * h) = x.nc) (hr : L.W.nr = sp * pn) (hcc : L.W.nc = sp * nf) :
    ∃ y L' c' y1 L1 c1, Conv.forwardprop junk L c x = .ok (y, L', c') ∧ Conv.forwardprop junk L c (mixedRow x (h * w)) = .ok (y1, L1, c1) ∧
      y.nr = x.nr ∧ y.nc = y1.nc ∧ ∀ r n, r < x.nr → y.f r n = y1.f 0 n := by
  obtain ⟨A, hA, hf⟩ := Conv.forward_ok junk G hm (le_of_eq hc) hr hcc rfl rfl rfl
  obtain ⟨A1, hA1, hf1⟩ := Conv.forward_ok junk G (pa := mixedRow x (h * w)) (by show 0 < 1; omega) (le_of_eq hc) hr hcc rfl rfl rfl
  refine ⟨_, _, _, _, _, _, hf, hf1, by rw [hA]; rfl, by rw [hA, hA1]; rfl, fun r n hr' => ?_⟩
  have himg : ∀ q, q < pn → Conv.padImg (mixedRow x (h * w)) h w pd q = Conv.padImg x h w pd q := by
    intro q hq
    refine Mat.ext' rfl rfl fun a b _ _ => ?_
    rw [padImg_f G.hh, padImg_f G.hh]
    unfold Spec.pixel
    by_cases hcd : pd ≤ a ∧ a < pd + h ∧ pd ≤ b ∧ b < pd + w
    · rw [if_pos hcd, if_pos hcd, mixed_one rfl]
      unfold mixedRow
      rw [Mat.of_f' (by omega)]
      have h1 : (b - pd) * h + (a - pd) < w * h := row_lt (by omega) (by omega)
      have h2 : q * (w * h) + ((b - pd) * h + (a - pd)) < pn * (w * h) := row_lt hq h1
      rw [← hc, Nat.mul_comm h w, Nat.add_assoc]
      exact h2
    · rw [if_neg hcd, if_neg hcd]
  have hAA : ∀ q, A.f r q = A1.f 0 q := by
    intro q
    rw [hA, hA1, Mat.of_f, Mat.of_f]
    by_cases hq : q < Spec.outLen h sp st pd * Spec.outLen w sp st pd * nf
    · rw [if_pos ⟨hr', hq⟩, if_pos ⟨by show 0 < 1; omega, hq⟩]
      refine sum_congr rfl fun j hj => ?_
      rw [himg j (mem_range.1 hj)]
    · rw [if_neg (fun hh => hq hh.2), if_neg (fun hh => hq hh.2)]
  unfold funcop Mat.map
  rw [Mat.of_f, Mat.of_f]
  have n1 : A.nr = x.nr := by rw [hA]; rfl
  have n2 : A1.nr = 1 := by rw [hA1]; rfl
  have n3 : A.nc = A1.nc := by rw [hA, hA1]; rfl
  by_cases hq : n < A.nc
  · rw [if_pos ⟨by omega, hq⟩, if_pos ⟨by omega, by omega⟩, hAA]
  · rw [if_neg (fun hh => hq hh.2), if_neg (fun hh => hq (by rw [n3]; exact hh.2))]

/-- The same for max pooling. -/
theorem C48_maxpool (junk : Nat → Nat → ℝ) {L : Layer} {c : Conv} {h w nf sp st : Nat} (G : c.Geo h w nf nf sp st 0) {x : Mat ℝ}
    (hm : 0 < x.nr) (hc : nf * (w * h) ≤ x.nc) :
    ∃ y L' c' idx, MaxPool.forwardprop junk L c x = .ok (y, L', c', idx) ∧ y.nr = x.nr ∧ ∀ r r' n, r < x.nr → r' < x.nr → y.f r n = y.f r' n := by
  obtain ⟨A, idx, hA, hf⟩ := MaxPool.forward_ok (L := L) junk G hm hc rfl rfl rfl
  refine ⟨_, _, _, _, hf, by rw [hA]; rfl, fun r r' n hr hr' => ?_⟩
  rw [hA]
  unfold funcop Mat.map
  rw [Mat.of_f, Mat.of_f]
  simp only [Mat.of_nr, Mat.of_nc, Mat.of_f, hr, hr', true_and]

/-- The same for mean pooling. -/
theorem C48_meanpool (junk : Nat → Nat → ℝ) {L : Layer} {c : Conv} {h w nf sp st : Nat} (G : c.Geo h w nf nf sp st 0) {x : Mat ℝ}
    (hm : 0 < x.nr) (hc : nf * (w * h) ≤ x.nc) :
    ∃ y L' c', MeanPool.forwardprop junk L c x = .ok (y, L', c') ∧ y.nr = x.nr ∧ ∀ r r' n, r < x.nr → r' < x.nr → y.f r n = y.f r' n := by
  obtain ⟨A, hA, hf⟩ := MeanPool.forward_ok (L := L) junk G hm hc rfl rfl rfl
  refine ⟨_, _, _, hf, by rw [hA]; rfl, fun r r' n hr hr' => ?_⟩
  rw [hA]
  unfold funcop Mat.map
  rw [Mat.of_f, Mat.of_f]
  simp only [Mat.of_nr, Mat.of_nc, Mat.of_f, hr, hr', true_and]

/-- A batch whose rows all get the same output does not treat its rows independently, if two of them alone get different outputs. -/
theorem not_independent {f : Mat ℝ → Res (Mat ℝ)} {x y y0 y1 : Mat ℝ} {r0 r1 n : Nat} (h : f x = .ok y) (h0 : r0 < x.nr) (h1 : r1 < x.nr)
    (hy : y.f r0 n = y.f r1 n) (hf0 : f (Mat.of 1 x.nc (fun _ n => x.f r0 n)) = .ok y0) (hf1 : f (Mat.of 1 x.nc (fun _ n => x.f r1 n)) = .ok y1)
    (hne : y0.f 0 n ≠ y1.f 0 n) : ¬ Spec.RowsIndependent f := by
  intro hri
  obtain ⟨z0, e0, g0⟩ := hri x y h r0 h0
  obtain ⟨z1, e1, g1⟩ := hri x y h r1 h1
  rw [hf0] at e0
  rw [hf1] at e1
  cases e0
  cases e1
  apply hne
  rw [← g0, ← g1, hy]

/-- For every convolution layer: a batch with two rows whose outputs alone would differ breaks the property. -/
theorem C48_conv_fails (junk : Nat → Nat → ℝ) {L : Layer} {c : Conv} {h w pn nf sp st pd : Nat} (G : c.Geo h w pn nf sp st pd) {x : Mat ℝ}
    (hc : pn * (w * h) = x.nc) (hr : L.W.nr = sp * pn) (hcc : L.W.nc = sp * nf) {r0 r1 n : Nat} (h0 : r0 < x.nr) (h1 : r1 < x.nr) {s0 s1 : Mat ℝ × Layer × Conv}
    (hf0 : Conv.forwardprop junk L c (Mat.of 1 x.nc (fun _ n => x.f r0 n)) = .ok s0) (hf1 : Conv.forwardprop junk L c (Mat.of 1 x.nc (fun _ n => x.f r1 n)) = .ok s1)
    (hne : s0.1.f 0 n ≠ s1.1.f 0 n) : ¬ Spec.RowsIndependent (fun x => do let s ← Conv.forwardprop junk L c x; .ok s.1) := by
  obtain ⟨y, L', c', y1, _, _, h2, _, _, _, h3⟩ := C48_conv junk G (by omega) hc hr hcc
  refine not_independent (x := x) (y := y) (y0 := s0.1) (y1 := s1.1) (n := n) ?_ h0 h1 ?_ ?_ ?_ hne
  · rw [h2, ok_bind]
  · rw [h3 r0 n h0, h3 r1 n h1]
  · rw [hf0, ok_bind]
  · rw [hf1, ok_bind]

/-- The property is false for all three layers, already for single-pixel images: in a batch of the samples 1 and 2 both rows get the output of 1. -/
theorem C48_refuted (junk : Nat → Nat → ℝ) :
    (∃ L c, c.Geo 1 1 1 1 1 1 0 ∧ ¬ Spec.RowsIndependent (fun x => do let s ← Conv.forwardprop junk L c x; .ok s.1)) ∧
    (∃ L c, MaxPool.new (fun _ _ => 0) junk 1 1 1 1 1 = .ok (L, c) ∧ ¬ Spec.RowsIndependent (fun x => do let s ← MaxPool.forwardprop junk L c x; .ok s.1)) ∧
    (∃ L c, MeanPool.new (fun _ _ => 0) junk 1 1 1 1 1 = .ok (L, c) ∧ ¬ Spec.RowsIndependent (fun x => do let s ← MeanPool.forwardprop junk L c x; .ok s.1)) := by
  let x : Mat ℝ := Mat.of 2 1 (fun i _ => i + 1)
  have hx : ∀ r, r < 2 → Mat.of 1 x.nc (fun _ n => x.f r n) = Mat.of 1 1 (fun _ _ => (r : ℝ) + 1) := by
    intro r hr
    refine Mat.ext' rfl rfl ?_
    intro i j (hi : i < 1) (hj : j < 1)
    rw [Mat.of_f' (c := 1) hi hj]
    refine (Mat.of_f' (c := 1) hi hj).trans ?_
    exact Mat.of_f' hr hj
  have hL1 : Spec.outLen 1 1 1 0 = 1 := rfl
  refine ⟨?_, ?_, ?_⟩
  · obtain ⟨L, c, h1, h2, h3, h4, h5⟩ := C47_constructor (fun _ _ => 0) junk (h := 1) (w := 1) (pn := 1) (nf := 1) (sp := 1) (st := 1) (pd := 0) 0
      Act.identity (by norm_num) (by norm_num) (by norm_num) (by norm_num) (by norm_num) (by norm_num) (by norm_num) (by norm_num) (by norm_num) (by norm_num)
    have hact : L.actfunc.act = id := by rw [h5]; rfl
    refine ⟨{ L with W := Mat.of 1 1 (fun _ _ => 1) }, c, h2, ?_⟩
    have hone : ∀ a : ℝ, ∃ s, Conv.forwardprop junk { L with W := Mat.of 1 1 (fun _ _ => 1) } c (Mat.of 1 1 (fun _ _ => a)) = .ok s ∧ s.1.f 0 0 = a := by
      intro a
      obtain ⟨y, L', c', g1, _, g3⟩ := C47_layout junk (L := { L with W := Mat.of 1 1 (fun _ _ => 1) }) h2 rfl rfl (by simp [Mat.of_f]) hact
        (x := Mat.of 1 1 (fun _ _ => a)) rfl (by simp)
      refine ⟨_, g1, ?_⟩
      have := g3 0 0 (by omega) (by omega)
      simpa [Mat.of_f] using this
    obtain ⟨s0, e0, v0⟩ := hone ((0 : ℕ) + 1)
    obtain ⟨s1, e1, v1⟩ := hone ((1 : ℕ) + 1)
    refine C48_conv_fails junk h2 (x := x) (r0 := 0) (r1 := 1) (n := 0) rfl rfl rfl (by show 0 < 2; omega) (by show 1 < 2; omega) (s0 := s0) (s1 := s1) ?_ ?_ ?_
    · rw [hx 0 (by omega)]; exact e0
    · rw [hx 1 (by omega)]; exact e1
    · rw [v0, v1]; norm_num
  · obtain ⟨L, c, h1, h2, h3, h4, h5⟩ := C47_constructor (fun _ _ => 0) junk (h := 1) (w := 1) (pn := 1) (nf := 1) (sp := 1) (st := 1) (pd := 0) 0
      Act.identity (by norm_num) (by norm_num) (by norm_num) (by norm_num) (by norm_num) (by norm_num) (by norm_num) (by norm_num) (by norm_num) (by norm_num)
    refine ⟨L, c, h1, ?_⟩
    have hone : ∀ a : ℝ, ∃ s, MaxPool.forwardprop junk L c (Mat.of 1 1 (fun _ _ => a)) = .ok s ∧ s.1.f 0 0 = max 0 a := by
      intro a
      obtain ⟨L', c', g1, y, L2, c2, idx, g2, g3⟩ := maxpool_line junk (w := 1) (nf := 1) (st := 1) (by norm_num) (by norm_num) (by norm_num) (by norm_num) (fun _ => a)
      have : (Except.ok (L, c) : Res _) = .ok (L', c') := h1.symm.trans g1
      cases this
      refine ⟨_, g2, ?_⟩
      have := g3 0 0 (by omega) (by rw [hL1]; omega)
      simpa using this
    obtain ⟨s0, e0, v0⟩ := hone ((0 : ℕ) + 1)
    obtain ⟨s1, e1, v1⟩ := hone ((1 : ℕ) + 1)
    obtain ⟨y, L', c', idx, g1, g2, g3⟩ := C48_maxpool (L := L) junk h2 (x := x) (by show 0 < 2; omega) (le_refl _)
    refine not_independent (x := x) (y := y) (y0 := s0.1) (y1 := s1.1) (r0 := 0) (r1 := 1) (n := 0) ?_ (by show 0 < 2; omega) (by show 1 < 2; omega) ?_ ?_ ?_ ?_
    · rw [g1, ok_bind]
    · exact g3 0 1 0 (by show 0 < 2; omega) (by show 1 < 2; omega)
    · rw [hx 0 (by omega), e0, ok_bind]
    · rw [hx 1 (by omega), e1, ok_bind]
    · rw [v0, v1]; norm_num
  · obtain ⟨L, c, h1, h2, h3, h4, h5⟩ := C47_constructor (fun _ _ => 0) junk (h := 1) (w := 1) (pn := 1) (nf := 1) (sp := 1) (st := 1) (pd := 0) 0
      Act.identity (by norm_num) (by norm_num) (by norm_num) (by norm_num) (by norm_num) (by norm_num) (by norm_num) (by norm_num) (by norm_num) (by norm_num)
    refine ⟨L, c, h1, ?_⟩
    have hone : ∀ a : ℝ, ∃ s, MeanPool.forwardprop junk L c (Mat.of 1 1 (fun _ _ => a)) = .ok s ∧ s.1.f 0 0 = a := by
      intro a
      obtain ⟨L', c', g1, y, L2, c2, g2, g3⟩ := meanpool_line junk (w := 1) (nf := 1) (st := 1) (by norm_num) (by norm_num) (by norm_num) (by norm_num) (fun _ => a)
      have : (Except.ok (L, c) : Res _) = .ok (L', c') := h1.symm.trans g1
      cases this
      refine ⟨_, g2, ?_⟩
      have := g3 0 0 (by omega) (by rw [hL1]; omega)
      simpa using this
    obtain ⟨s0, e0, v0⟩ := hone ((0 : ℕ) + 1)
    obtain ⟨s1, e1, v1⟩ := hone ((1 : ℕ) + 1)
    obtain ⟨y, L', c', g1, g2, g3⟩ := C48_meanpool (L := L) junk h2 (x := x) (by show 0 < 2; omega) (le_refl _)
    refine not_independent (x := x) (y := y) (y0 := s0.1) (y1 := s1.1) (r0 := 0) (r1 := 1) (n := 0) ?_ (by show 0 < 2; omega) (by show 1 < 2; omega) ?_ ?_ ?_ ?_
    · rw [g1, ok_bind]
    · exact g3 0 1 0 (by show 0 < 2; omega) (by show 1 < 2; omega)
    · rw [hx 0 (by omega), e0, ok_bind]
    · rw [hx 1 (by omega), e1, ok_bind]
    · rw [v0, v1]; norm_num

/-- Batches of one row, the case for which the property holds (with `C47_forward_partial`, `C51_exact` and `C52_exact` for their values): the sample
the layers use is the row itself. -/
theorem C48_single_partial {x : Mat ℝ} (h1 : x.nr = 1) (size : Nat) : mixedRow x size = x := by
  refine Mat.ext' h1.symm rfl ?_
  intro i j (hi : i < 1) (hj : j < x.nc)
  unfold mixedRow
  rw [Mat.of_f' hi hj, mixed_one h1, show i = 0 by omega]

/-! ## C50 -/

/-- What assignment copies: the window, padding, channel and input sizes and the stored images. -/
theorem C50_assign_partial (self conv : Conv) :
    (Conv.assign self conv).inputwidth = conv.inputwidth ∧ (Conv.assign self conv).inputheight = conv.inputheight ∧
    (Conv.assign self conv).pnfilter = conv.pnfilter ∧ (Conv.assign self conv).nfilter = conv.nfilter ∧
    (Conv.assign self conv).spatial = conv.spatial ∧ (Conv.assign self conv).padding = conv.padding ∧ (Conv.assign self conv).images = conv.images :=
  ⟨rfl, rfl, rfl, rfl, rfl, rfl, rfl⟩

/-- What it does not copy: the stride becomes the window size, and the output and input sizes stay those of the target. -/
theorem C50_assign_loses (self conv : Conv) :
    (Conv.assign self conv).stride = conv.spatial ∧ (Conv.assign self conv).inputsize = self.inputsize ∧
    (Conv.assign self conv).outputwidth = self.outputwidth ∧ (Conv.assign self conv).outputheight = self.outputheight ∧
    (Conv.assign self conv).outputsize = self.outputsize := ⟨rfl, rfl, rfl, rfl, rfl⟩

/-- A copy has the stride of the original exactly when the stride equals the window size. -/
theorem C50_stride (self conv : Conv) : (Conv.assign self conv).stride = conv.stride ↔ conv.stride = conv.spatial :=
  ⟨fun h => h.symm, fun h => h.symm⟩

/-- A copy-constructed layer has new random weights: they depend on the sizes of the original's kernels and the random numbers only, not on the
original's weights. Its learning rate and activation are the original's. -/
theorem C50_copy_weights (dist : Draws) (junk : Nat → Nat → ℝ) (mem : Conv) {L : Layer} {c : Conv} {h w pn nf sp st pd : Nat} (G : c.Geo h w pn nf sp st pd) :
    ∃ L' c', Conv.copyCtor dist junk mem L c = .ok (L', c') ∧ L'.W.nr = sp * pn ∧ L'.W.nc = sp * nf ∧ L'.lrate = L.lrate ∧ L'.actfunc = L.actfunc ∧
      c' = Conv.assign mem c ∧
      ∀ L2 : Layer, ∃ L2', Conv.copyCtor dist junk mem L2 c = .ok (L2', c') ∧ L2'.W = L'.W := by
  have key : ∀ L : Layer, Conv.copyCtor dist junk mem L c = .ok ({ Layer.default with
      lrate := L.lrate, lambda := 0, actfunc := L.actfunc, W := initW dist (sp * pn) (sp * nf) 1, grad := Mat.of (sp * pn) (sp * nf) junk }, Conv.assign mem c) := by
    intro L
    unfold Conv.copyCtor Layer.new Layer.newDev Mat.mk'
    have hp : 0 < sp * pn := Nat.mul_pos G.hsp G.hpn
    rw [G.esp, G.epn, G.enf]
    have e1 : ((sp : Int) * pn - 1 + 1) = ((sp * pn : Nat) : Int) := by push_cast; ring
    have e2 : ((sp : Int) * nf) = ((sp * nf : Nat) : Int) := by push_cast; ring
    rw [e1, e2, if_pos (by omega), ok_bind, ok_bind, randominit_ok, ok_bind]
    simp only [Int.toNat_natCast]
    rfl
  refine ⟨_, _, key L, rfl, rfl, rfl, rfl, rfl, fun L2 => ⟨_, key L2, rfl⟩⟩

/-- The property is false: the copy of a layer whose weight is 1 has, with random numbers that are all 0, the weight 0, and computes 0 instead of its
input. The memory of the new object is assumed to contain the right sizes; with other contents it fails as well. -/
theorem C50_refuted (junk : Nat → Nat → ℝ) : ∃ (L : Layer) (c : Conv) (x : Mat ℝ) (L2 : Layer) (c2 : Conv) (s s2 : Mat ℝ × Layer × Conv), c.Geo 1 1 1 1 1 1 0 ∧
    Conv.copyCtor (fun _ _ => 0) junk c L c = .ok (L2, c2) ∧ Conv.forwardprop junk L c x = .ok s ∧ Conv.forwardprop junk L2 c2 x = .ok s2 ∧
    L.W ≠ L2.W ∧ s.1 ≠ s2.1 := by
  obtain ⟨L, c, h1, h2, h3, h4, h5⟩ := C47_constructor (fun _ _ => 0) junk (h := 1) (w := 1) (pn := 1) (nf := 1) (sp := 1) (st := 1) (pd := 0) 0
    Act.identity (by norm_num) (by norm_num) (by norm_num) (by norm_num) (by norm_num) (by norm_num) (by norm_num) (by norm_num) (by norm_num) (by norm_num)
  have hact : L.actfunc.act = id := by rw [h5]; rfl
  obtain ⟨y, L', c', g1, _, g3⟩ := C47_layout junk (L := { L with W := Mat.of 1 1 (fun _ _ => 1) }) h2 rfl rfl (by simp [Mat.of_f]) hact
    (x := Mat.of 1 1 (fun _ _ => 1)) rfl (by simp)
  obtain ⟨L2, c2, k1, k2, k3, k4, k5, k6, k7⟩ := C50_copy_weights (fun _ _ => 0) junk c (L := { L with W := Mat.of 1 1 (fun _ _ => 1) }) h2
  have hc2 : c2 = c := by
    rw [k6]
    unfold Conv.assign
    have := h2.est
    have := h2.esp
    cases c
    simp_all
  rw [hc2] at k1
  have hW : L2.W.f 0 0 = 0 := by
    have : Conv.copyCtor (fun _ _ => 0) junk c { L with W := Mat.of 1 1 (fun _ _ => 1) } c = .ok (L2, c) := k1
    unfold Conv.copyCtor Layer.new Layer.newDev Mat.mk' at this
    rw [h2.esp, h2.epn, h2.enf] at this
    simp only [Nat.cast_one, one_mul, sub_self, zero_add] at this
    rw [if_pos (by norm_num), ok_bind, ok_bind, randominit_ok, ok_bind] at this
    injection this with this
    have := (Prod.mk.inj this).1
    rw [← this]
    simp [initW, Mat.of_f, Mat.smul_f]
  obtain ⟨y2, L3, c3, p1, p2, p3, p4⟩ := C47_forward_partial junk (L := L2) h2 (x := Mat.of 1 1 (fun _ _ => 1)) rfl (by simp) k2 k3
  refine ⟨_, c, Mat.of 1 1 (fun _ _ => 1), L2, c, _, _, h2, k1, g1, p1, ?_, ?_⟩
  · intro hh
    have e := congrArg (fun m => Mat.f m 0 0) hh
    simp only [Mat.of_f] at e
    rw [hW] at e
    norm_num at e
  · intro hh
    have e := congrArg (fun m => Mat.f m 0 0) hh
    simp only at e
    have e1 := g3 0 0 (by omega) (by omega)
    have e2 := p4 0 0 0 (by omega) (Nat.succ_pos _) (Nat.succ_pos _)
    simp only [Nat.zero_mul, Nat.add_zero] at e1 e2
    rw [e1, e2, k5, hact] at e
    simp [Spec.conv, Spec.pixel, Mat.of_f, hW] at e

end
end Nnet.NN
