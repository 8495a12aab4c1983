import Verif.NN.Photo
import Verif.NN.PropsConvBack
/-!
# C121: a picture in the convolution test program
-/
namespace Nnet.NN
open Finset
noncomputable section

/-! ## Specification -/

/-- Pixel `(r, c)` of channel `q` of the picture with `pd` rows and columns of zeros on each side. -/
def Spec.photo (img : Photo.Img) (pd q r c : Nat) : ℝ := if pd ≤ r ∧ r < pd + img.rows ∧ pd ≤ c ∧ c < pd + img.cols then img.px (r - pd) (c - pd) q else 0

/-- The picture the layer sees: row by row in memory, but read column by column. -/
def Spec.misread (img : Photo.Img) : Photo.Img := ⟨img.rows, img.cols, fun i j q => img.px ((j * img.rows + i) / img.cols) ((j * img.rows + i) % img.cols) q⟩

/-- The convolution of a picture with the kernels `W`: output channel `k`, position `(i, j)`. -/
def Spec.photoConv (img : Photo.Img) (sp pd : Nat) (W : Mat ℝ) (k i j : Nat) : ℝ :=
  ∑ q ∈ range 3, ∑ u ∈ range sp, ∑ v ∈ range sp, Spec.photo img pd q (i + u) (j + v) * W.f (q * sp + u) (k * sp + v)

/-! ## Lemmas -/

namespace Photo

/-- Column `n` of the sample, when it is filled. -/
def pix (img : Img) (n : Nat) : ℝ := img.px (n % (img.rows * img.cols) / img.cols) (n % (img.rows * img.cols) % img.cols) (n / (img.rows * img.cols))

theorem pix_at (img : Img) {c i j : Nat} (hi : i < img.rows) (hj : j < img.cols) : pix img (c * (img.rows * img.cols) + i * img.cols + j) = img.px i j c := by
  obtain ⟨a, b, d⟩ := maps_index (k := c) hi hj
  unfold pix
  rw [a, b, d]

/-- The sample after `n` elements have been written. -/
def filled (junk : Nat → Nat → ℝ) (img : Img) (n : Nat) : Mat ℝ := Mat.of 1 (img.rows * img.cols * 3) (fun a b => if b < n then pix img b else junk a b)

theorem filled_step (junk : Nat → Nat → ℝ) (img : Img) {c i j : Nat} (hc : c < 3) (hi : i < img.rows) (hj : j < img.cols) :
    (filled junk img (c * (img.rows * img.cols) + i * img.cols + j)).setAt 0 (c * (img.rows * img.cols) + i * img.cols + j : Nat) (img.px i j c) =
      .ok (filled junk img (c * (img.rows * img.cols) + i * img.cols + (j + 1))) := by
  have hlt := maps_lt hc hi hj
  rw [Mat.setAt_ok (i := 0) (a := 0) _ rfl rfl (by show 0 < 1; omega) (by exact hlt)]
  congr 1
  refine Mat.ext' rfl rfl fun a b ha hb => ?_
  replace ha : a < 1 := ha
  replace hb : b < img.rows * img.cols * 3 := hb
  unfold filled
  rw [Mat.of_f' (by exact ha) (by exact hb), Mat.of_f' ha hb, Mat.of_f' ha hb]
  by_cases hbn : b = c * (img.rows * img.cols) + i * img.cols + j
  · rw [if_pos ⟨by omega, hbn⟩, if_pos (by omega), hbn, pix_at img hi hj]
  · rw [if_neg (fun h => hbn h.2)]
    by_cases hlt' : b < c * (img.rows * img.cols) + i * img.cols + j
    · rw [if_pos hlt', if_pos (by omega)]
    · rw [if_neg hlt', if_neg (by omega)]

theorem resizeimg_eq (junk : Nat → Nat → ℝ) (img : Img) : resizeimg junk img = .ok (filled junk img (img.rows * img.cols * 3)) := by
  unfold resizeimg Mat.mk'
  rw [if_pos ⟨by omega, by omega⟩, ok_bind]
  have h0 : (Mat.of (Int.toNat 1) (Int.toNat ((img.rows * img.cols * 3 : Nat) : Int)) junk) = filled junk img 0 := by
    rw [Int.toNat_natCast]
    refine Mat.ext' rfl rfl fun a b ha hb => ?_
    replace ha : a < 1 := ha
    replace hb : b < img.rows * img.cols * 3 := hb
    unfold filled
    rw [Mat.of_f' (by exact ha) hb, Mat.of_f' ha hb, if_neg (by omega)]
  rw [h0]
  have e := loop_eq (n := 3) (s := filled junk img 0) (body := fun c sample => loop img.rows (fun i sample => loop img.cols (fun j sample =>
    sample.setAt 0 (c * (img.rows * img.cols) + i * img.cols + j : Nat) (img.px i j c)) sample) sample) (fun c => filled junk img (c * (img.rows * img.cols))) (by simp) (fun c hc => by
    have e2 := loop_eq (n := img.rows) (s := filled junk img (c * (img.rows * img.cols))) (body := fun i sample => loop img.cols (fun j sample =>
      sample.setAt 0 (c * (img.rows * img.cols) + i * img.cols + j : Nat) (img.px i j c)) sample) (fun i => filled junk img (c * (img.rows * img.cols) + i * img.cols)) (by simp) (fun i hi => by
      have e3 := loop_eq (n := img.cols) (s := filled junk img (c * (img.rows * img.cols) + i * img.cols)) (body := fun j sample =>
        sample.setAt 0 (c * (img.rows * img.cols) + i * img.cols + j : Nat) (img.px i j c)) (fun j => filled junk img (c * (img.rows * img.cols) + i * img.cols + j)) rfl
        (fun j hj => filled_step junk img hc hi hj)
      rw [e3]
      congr 2
      ring)
    rw [e2]
    congr 2
    ring)
  rw [e]
  congr 2
  ring

/-- The sample. -/
def sample (img : Img) : Mat ℝ := Mat.of 1 (img.rows * img.cols * 3) (fun _ b => pix img b)

theorem resizeimg_ok (junk : Nat → Nat → ℝ) (img : Img) : resizeimg junk img = .ok (sample img) := by
  rw [resizeimg_eq]
  congr 1
  refine Mat.ext' rfl rfl fun a b ha hb => ?_
  replace ha : a < 1 := ha
  replace hb : b < img.rows * img.cols * 3 := hb
  unfold filled sample
  rw [Mat.of_f' ha hb, Mat.of_f' ha hb, if_pos hb]

theorem seen (img : Img) {pd q r c : Nat} (hq : q < 3) : Spec.pixel img.rows img.cols pd ((sample img).f 0) q r c = Spec.photo (Spec.misread img) pd q r c := by
  unfold Spec.pixel Spec.photo Spec.misread
  by_cases h : pd ≤ r ∧ r < pd + img.rows ∧ pd ≤ c ∧ c < pd + img.cols
  · rw [if_pos h, if_pos h]
    have hlt : (c - pd) * img.rows + (r - pd) < img.rows * img.cols := by
      rw [Nat.mul_comm img.rows]
      exact row_lt (by omega) (by omega)
    have e : q * (img.rows * img.cols) + (c - pd) * img.rows + (r - pd) < img.rows * img.cols * 3 := by
      rw [Nat.add_assoc, Nat.mul_comm (img.rows * img.cols) 3]
      exact row_lt hq hlt
    unfold sample
    rw [Mat.of_f' (by omega) e]
    unfold pix
    rw [Nat.add_assoc, (row_div_mod hlt).1, (row_div_mod hlt).2]
  · rw [if_neg h, if_neg h]

end Photo

/-! ## C121 -/

/-- **C121** (the sample). For every picture `resizeimg` gives one row that holds the channels one after the other, each row by row. -/
theorem C121_sample (junk : Nat → Nat → ℝ) (img : Photo.Img) : ∃ m, Photo.resizeimg junk img = .ok m ∧ m.nr = 1 ∧ m.nc = img.rows * img.cols * 3 ∧
    ∀ q < 3, ∀ i < img.rows, ∀ j < img.cols, m.f 0 (q * (img.rows * img.cols) + i * img.cols + j) = img.px i j q := by
  refine ⟨_, Photo.resizeimg_ok junk img, rfl, rfl, fun q hq i hi j hj => ?_⟩
  unfold Photo.sample
  rw [Mat.of_f' (by omega) (maps_lt hq hi hj), Photo.pix_at img hi hj]

/-- **C121** (what is convolved). For every picture and every layer of its size with stride 1, the output for the sample is the convolution not of the picture but of the picture read in the wrong order. -/
theorem C121_misread (junk : Nat → Nat → ℝ) {L : Layer} {c : Conv} {nf sp pd : Nat} {img : Photo.Img} (G : c.Geo img.rows img.cols 3 nf sp 1 pd) (hr : L.W.nr = sp * 3) (hcc : L.W.nc = sp * nf) :
    ∃ m y L' c', Photo.resizeimg junk img = .ok m ∧ Conv.forwardprop junk L c m = .ok (y, L', c') ∧ y.nr = 1 ∧ y.nc = nf * (Spec.outLen img.rows sp 1 pd * Spec.outLen img.cols sp 1 pd) ∧
      Spec.IsMaps (Spec.outLen img.rows sp 1 pd) (Spec.outLen img.cols sp 1 pd) nf (y.f 0) (fun k i j => L.actfunc.act (Spec.photoConv (Spec.misread img) sp pd L.W k i j)) := by
  obtain ⟨y, L', c', h1, h2, h3, h4⟩ := C47_forward_partial junk (L := L) G (x := Photo.sample img) rfl
    (by show 3 * (img.cols * img.rows) ≤ img.rows * img.cols * 3; rw [Nat.mul_comm 3, Nat.mul_comm img.cols]) hr hcc
  refine ⟨_, y, L', c', Photo.resizeimg_ok junk img, h1, h2, h3, fun k i j hk hi hj => ?_⟩
  rw [h4 k i j hk hi hj]
  simp only
  congr 1
  unfold Spec.conv Spec.photoConv
  refine sum_congr rfl fun q hq => sum_congr rfl fun u _ => sum_congr rfl fun v _ => ?_
  rw [Photo.seen img (mem_range.1 hq), Nat.mul_one, Nat.mul_one]

/-- **C121** (square pictures). A square picture is seen mirrored at its diagonal: rows and columns are exchanged. -/
theorem C121_square (img : Photo.Img) (hs : img.rows = img.cols) {pd q r c : Nat} : Spec.photo (Spec.misread img) pd q r c = Spec.photo img pd q c r := by
  unfold Spec.photo Spec.misread
  by_cases h : pd ≤ r ∧ r < pd + img.rows ∧ pd ≤ c ∧ c < pd + img.cols
  · rw [if_pos h, if_pos (by omega)]
    show img.px (((c - pd) * img.rows + (r - pd)) / img.cols) (((c - pd) * img.rows + (r - pd)) % img.cols) q = _
    rw [hs, (row_div_mod (by omega)).1, (row_div_mod (by omega)).2]
  · rw [if_neg h, if_neg (by omega)]

/-- **C121** (full statement refuted). The claim is that the layer sees the picture: the output is the convolution of the picture. It is false for every size of at least 2 x 2: already for a 1 x 1 filter
with a positive weight there is a picture with the wrong output. -/
theorem C121_refuted (junk : Nat → Nat → ℝ) {L : Layer} {c : Conv} {h w : Nat} (G : c.Geo h w 3 1 1 1 0) (hr : L.W.nr = 3) (hcc : L.W.nc = 1) (hW : 0 < L.W.f 0 0) (hact : L.actfunc = Act.relu)
    (hh : 2 ≤ h) (hw : 2 ≤ w) : ∃ img m y L' c', img.rows = h ∧ img.cols = w ∧ Photo.resizeimg junk img = .ok m ∧ Conv.forwardprop junk L c m = .ok (y, L', c') ∧
      y.f 0 1 ≠ L.actfunc.act (Spec.photoConv img 1 0 L.W 0 0 1) := by
  let img : Photo.Img := ⟨h, w, fun i j q => if i = 0 ∧ j = 1 ∧ q = 0 then 1 else 0⟩
  obtain ⟨m, y, L', c', e1, e2, -, -, e3⟩ := C121_misread junk (L := L) (c := c) (img := img) (nf := 1) (sp := 1) (pd := 0) G (by omega) (by omega)
  refine ⟨img, m, y, L', c', rfl, rfl, e1, e2, ?_⟩
  have hl : Spec.outLen w 1 1 0 = w := by unfold Spec.outLen; rw [Nat.div_one]; omega
  have hl' : Spec.outLen h 1 1 0 = h := by unfold Spec.outLen; rw [Nat.div_one]; omega
  have := e3 0 0 1 (by omega) (by show 0 < Spec.outLen h 1 1 0; omega) (by show 1 < Spec.outLen w 1 1 0; omega)
  simp only [Nat.zero_mul, Nat.zero_add] at this
  rw [this, hact]
  have z1 : Spec.photoConv (Spec.misread img) 1 0 L.W 0 0 1 = 0 := by
    unfold Spec.photoConv Spec.photo Spec.misread
    refine sum_eq_zero fun q _ => sum_eq_zero fun u hu => sum_eq_zero fun v hv => ?_
    have hu : u = 0 := by simpa using hu
    have hv : v = 0 := by simpa using hv
    subst hu hv
    rw [if_pos ⟨by omega, by show 0 + 0 < 0 + h; omega, by omega, by show 1 + 0 < 0 + w; omega⟩]
    show (if (1 * h + 0) / w = 0 ∧ (1 * h + 0) % w = 1 ∧ q = 0 then (1 : ℝ) else 0) * _ = 0
    rw [if_neg, zero_mul]
    rintro ⟨a, b, -⟩
    rw [Nat.one_mul, Nat.add_zero] at a b
    have := Nat.div_add_mod h w
    rw [a, b] at this
    omega
  have z2 : Spec.photoConv img 1 0 L.W 0 0 1 = L.W.f 0 0 := by
    unfold Spec.photoConv Spec.photo
    rw [sum_range_succ, sum_range_succ, sum_range_one]
    simp only [sum_range_one]
    rw [if_pos ⟨by omega, by show 0 + 0 < 0 + h; omega, by omega, by show 1 + 0 < 0 + w; omega⟩, if_pos ⟨by omega, by show 0 + 0 < 0 + h; omega, by omega, by show 1 + 0 < 0 + w; omega⟩,
      if_pos ⟨by omega, by show 0 + 0 < 0 + h; omega, by omega, by show 1 + 0 < 0 + w; omega⟩]
    show (if (0 : Nat) = 0 ∧ (1 : Nat) = 1 ∧ (0 : Nat) = 0 then (1 : ℝ) else 0) * L.W.f 0 0 + (if (0 : Nat) = 0 ∧ (1 : Nat) = 1 ∧ (1 : Nat) = 0 then (1 : ℝ) else 0) * _ +
      (if (0 : Nat) = 0 ∧ (1 : Nat) = 1 ∧ (2 : Nat) = 0 then (1 : ℝ) else 0) * _ = _
    norm_num
  rw [z1, z2]
  show (if (0 : ℝ) ≥ 0 then (0 : ℝ) else 0) ≠ (if L.W.f 0 0 ≥ 0 then L.W.f 0 0 else 0)
  rw [if_pos hW.le, if_pos le_rfl]
  exact hW.ne

/-! ## The whole program -/

/-- Everything but the caches. -/
structure Photo.Same (h w nf sp pd : Nat) (W : Mat ℝ) (L : Layer) (c : Conv) : Prop where
  geo : c.Geo h w 3 nf sp 1 pd
  w : L.W = W
  wr : W.nr = sp * 3
  wc : W.nc = sp * nf
  gr : L.grad.nr = sp * 3
  gc : L.grad.nc = sp * nf
  act : L.actfunc = Act.relu

/-- The layer has seen the sample. -/
def Photo.Seen (img : Photo.Img) (pd : Nat) (c : Conv) : Prop := c.images = [Conv.padImg (Photo.sample img) img.rows img.cols pd 2]

theorem Photo.fwd (junk : Nat → Nat → ℝ) (img : Photo.Img) {nf sp pd : Nat} {W : Mat ℝ} : ∃ y : Mat ℝ, y.nr = 1 ∧ y.nc = nf * (Spec.outLen img.rows sp 1 pd * Spec.outLen img.cols sp 1 pd) ∧
    (Spec.IsMaps (Spec.outLen img.rows sp 1 pd) (Spec.outLen img.cols sp 1 pd) nf (y.f 0) fun k i j => Act.relu.act (Spec.photoConv (Spec.misread img) sp pd W k i j)) ∧
    ∀ L c, Photo.Same img.rows img.cols nf sp pd W L c → ∃ L' c', Conv.forwardprop junk L c (Photo.sample img) = .ok (y, L', c') ∧ Photo.Same img.rows img.cols nf sp pd W L' c' ∧ Photo.Seen img pd c' := by
  refine ⟨funcop (Mat.of 1 (Spec.outLen img.rows sp 1 pd * Spec.outLen img.cols sp 1 pd * nf) (fun _ q => ∑ j ∈ range 3,
        if 1 ∣ q % (Spec.outLen img.rows sp 1 pd * Spec.outLen img.cols sp 1 pd) / Spec.outLen img.cols sp 1 pd ∧ 1 ∣ q % (Spec.outLen img.rows sp 1 pd * Spec.outLen img.cols sp 1 pd) % Spec.outLen img.cols sp 1 pd then
          ∑ u ∈ range sp, ∑ v ∈ range sp, (Conv.padImg (Photo.sample img) img.rows img.cols pd j).f (q % (Spec.outLen img.rows sp 1 pd * Spec.outLen img.cols sp 1 pd) / Spec.outLen img.cols sp 1 pd + u)
            (q % (Spec.outLen img.rows sp 1 pd * Spec.outLen img.cols sp 1 pd) % Spec.outLen img.cols sp 1 pd + v) * W.f (j * sp + u) (q / (Spec.outLen img.rows sp 1 pd * Spec.outLen img.cols sp 1 pd) * sp + v)
        else junk 0 (q % (Spec.outLen img.rows sp 1 pd * Spec.outLen img.cols sp 1 pd)))) Act.relu.act, rfl, Nat.mul_comm _ _, fun k i j hk hi hj => ?_, fun L c S => ?_⟩
  · have hlt := maps_lt hk hi hj
    obtain ⟨m1, m2, m3⟩ := maps_index (k := k) hi hj
    show (Mat.map _ _).f 0 _ = _
    rw [Mat.map_f' (by show 0 < 1; omega) (by exact hlt), Mat.of_f' (by omega) hlt]
    congr 1
    rw [m1, m2, m3]
    unfold Spec.photoConv
    refine sum_congr rfl fun q hq => ?_
    rw [if_pos ⟨one_dvd _, one_dvd _⟩]
    refine sum_congr rfl fun u _ => sum_congr rfl fun v _ => ?_
    by_cases hh : 0 < img.rows
    · rw [padImg_f hh, ← Photo.seen img (mem_range.1 hq)]
      congr 1
      unfold Spec.pixel
      split
      · exact mixed_one rfl _ _
      · rfl
    · have e1 : Spec.photo (Spec.misread img) pd q (i + u) (j + v) = 0 := by
        unfold Spec.photo
        exact if_neg (by show ¬ (_ ∧ _ < pd + img.rows ∧ _); omega)
      rw [e1, zero_mul]
      have e2 : (Conv.padImg (Photo.sample img) img.rows img.cols pd q).f (i + u) (j + v) = 0 := by
        unfold Conv.padImg
        rw [Mat.of_f]
        split
        · unfold Conv.padPix
          exact if_neg (by omega)
        · rfl
      rw [e2, zero_mul]
  · obtain ⟨A, hA, hf⟩ := Conv.forward_ok junk S.geo (L := L) (pa := Photo.sample img) (by show 0 < 1; omega)
      (by show 3 * (img.cols * img.rows) ≤ img.rows * img.cols * 3; rw [Nat.mul_comm 3, Nat.mul_comm img.cols]) (by rw [S.w]; exact S.wr) (by rw [S.w]; exact S.wc) rfl rfl rfl
    rw [hA, S.w, S.act] at hf
    refine ⟨_, _, hf, ⟨⟨S.geo.eh, S.geo.ew, S.geo.es, S.geo.eoh, S.geo.eow, S.geo.eos, S.geo.epn, S.geo.enf, S.geo.esp, S.geo.est, S.geo.epd, S.geo.hh, S.geo.hw, S.geo.hpn, S.geo.hnf, S.geo.hsp, S.geo.hst,
      S.geo.fh, S.geo.fw, S.geo.bh, S.geo.bw⟩, rfl, S.wr, S.wc, S.gr, S.gc, rfl⟩, rfl⟩

theorem Photo.bwd (junk : Nat → Nat → ℝ) (img : Photo.Img) {nf sp pd : Nat} {W y : Mat ℝ} (hs : sp = 2 * pd + 1) (hy : y.nr = 1) (hyc : y.nc = nf * (img.rows * img.cols)) : ∃ d : Mat ℝ,
    d.nr = 1 ∧ d.nc = img.cols * img.rows * 3 ∧
    ∀ L c, Photo.Same img.rows img.cols nf sp pd W L c → Photo.Seen img pd c → ∃ L', Conv.backprop junk L c y = .ok (d, L', c) ∧ Photo.Same img.rows img.cols nf sp pd W L' c := by
  refine ⟨Mat.of 1 (img.cols * img.rows * 3) (fun i q => ∑ k ∈ range nf, backTerm Act.relu.actd y W img.rows img.cols sp pd i k q), rfl, rfl, fun L c S hi => ?_⟩
  have := Conv.back_ok junk (L := L) S.geo hs (del := y) (I := fun _ => Conv.padImg (Photo.sample img) img.rows img.cols pd 2) (fun _ _ => ⟨rfl, rfl⟩) (by rw [hi, hy]; rfl)
    (by rw [S.w]; exact S.wr) (by rw [S.w]; exact S.wc) S.gr S.gc (by omega)
  rw [hy, S.w, S.act] at this
  exact ⟨_, this, S.geo, rfl, S.wr, S.wc, rfl, rfl, rfl⟩

theorem photo_outLen {n pd : Nat} (hn : 0 < n) : Spec.outLen n (2 * pd + 1) 1 pd = n := by
  unfold Spec.outLen
  rw [Nat.div_one]
  omega

/-- **C121** (the program runs). For every picture, number of filters and padding, with stride 1 and the window that keeps the size (`spatial = 2 * padding + 1`), the program ends normally; `out` is the
convolution of the misread picture with the random kernels, `delta` has the size of the sample. -/
theorem C121_runs_partial (dist : Draws) (junk : Nat → Nat → ℝ) (img : Photo.Img) {nf pd : Nat} (lrate : ℝ) (hh : 0 < img.rows) (hw : 0 < img.cols) (hnf : 0 < nf) (bh : img.rows + 2 * pd < 2 ^ 31)
    (bw : img.cols + 2 * pd < 2 ^ 31) : ∃ L c out delta, Conv.new dist junk img.cols img.rows 3 nf (2 * pd + 1 : Nat) 1 pd lrate Act.relu = .ok (L, c) ∧
      Photo.main dist junk img.cols img.rows nf (2 * pd + 1 : Nat) 1 pd lrate img = .ok (out, delta) ∧ out.nr = 1 ∧ out.nc = nf * (img.rows * img.cols) ∧ delta.nr = 1 ∧ delta.nc = img.rows * img.cols * 3 ∧
      Spec.IsMaps img.rows img.cols nf (out.f 0) (fun k i j => Act.relu.act (Spec.photoConv (Spec.misread img) (2 * pd + 1) pd L.W k i j)) := by
  obtain ⟨L, c, h1, h2, h3, h4, h5, h6, h7, -, -⟩ := Conv.new_geo dist junk (h := img.rows) (w := img.cols) (pn := 3) (nf := nf) (sp := 2 * pd + 1) (st := 1) (pd := pd) lrate Act.relu hh hw (by omega) hnf
    (by omega) (by omega) (by omega) (by omega) bh bw
  have S : Photo.Same img.rows img.cols nf (2 * pd + 1) pd L.W L c := ⟨h2, rfl, h3, h4, h5, h6, h7⟩
  obtain ⟨y, y1, y2, y3, hf⟩ := Photo.fwd junk img (nf := nf) (sp := 2 * pd + 1) (pd := pd) (W := L.W)
  rw [photo_outLen hh, photo_outLen hw] at y2 y3
  obtain ⟨d, d1, d2, hb⟩ := Photo.bwd junk img (nf := nf) (sp := 2 * pd + 1) (pd := pd) (W := L.W) rfl y1 y2
  refine ⟨L, c, y, d, h1, ?_, y1, y2, d1, by rw [d2, Nat.mul_comm img.cols], y3⟩
  unfold Photo.main
  rw [show ((3 : Int)) = ((3 : Nat) : Int) from rfl, show ((1 : Int)) = ((1 : Nat) : Int) from rfl, h1, ok_bind]
  dsimp only
  rw [Photo.resizeimg_ok, ok_bind]
  obtain ⟨⟨o1, L1, c1⟩, e1, p1⟩ := loop_inv (n := 1000) (body := fun _ (s : Mat ℝ × Layer × Conv) => Conv.forwardprop junk s.2.1 s.2.2 (Photo.sample img)) (s := (Mat.empty, L, c))
    (fun i s => Photo.Same img.rows img.cols nf (2 * pd + 1) pd L.W s.2.1 s.2.2 ∧ (0 < i → s.1 = y ∧ Photo.Seen img pd s.2.2)) ⟨S, fun h => absurd h (by omega)⟩ (fun i s _ hs => by
      obtain ⟨L', c', g1, g2, g3⟩ := hf _ _ hs.1
      exact ⟨_, g1, g2, fun _ => ⟨rfl, g3⟩⟩)
  obtain ⟨rfl, q1⟩ := p1.2 (by omega)
  rw [e1, ok_bind]
  simp only
  obtain ⟨⟨o2, L2, c2⟩, e2, p2⟩ := loop_inv (n := 1000) (body := fun _ (s : Mat ℝ × Layer × Conv) => Conv.backprop junk s.2.1 s.2.2 o1) (s := (Mat.empty, L1, c1))
    (fun i s => (Photo.Same img.rows img.cols nf (2 * pd + 1) pd L.W s.2.1 s.2.2 ∧ Photo.Seen img pd s.2.2) ∧ (0 < i → s.1 = d)) ⟨⟨p1.1, q1⟩, fun h => absurd h (by omega)⟩ (fun i s _ hs => by
      obtain ⟨L', g1, g2⟩ := hb _ _ hs.1.1 hs.1.2
      exact ⟨_, g1, ⟨g2, hs.1.2⟩, fun _ => rfl⟩)
  obtain rfl := p2.2 (by omega)
  rw [e2, ok_bind]
  simp only
  obtain ⟨s3, e3, -⟩ := loop_inv (n := 1000) (body := fun _ (s : Layer × Conv) => do
    let (_, L, c) ← Conv.forwardprop junk s.1 s.2 (Photo.sample img)
    let (_, L, c) ← Conv.backprop junk L c o1
    .ok (L, c)) (s := (L2, c2)) (fun _ s => Photo.Same img.rows img.cols nf (2 * pd + 1) pd L.W s.1 s.2) p2.1.1 (fun i s _ hs => by
      obtain ⟨L', c', g1, g2, g3⟩ := hf _ _ hs
      obtain ⟨L'', k1, k2⟩ := hb _ _ g2 g3
      refine ⟨(L'', c'), ?_, k2⟩
      rw [g1, ok_bind]
      simp only
      rw [k1, ok_bind])
  rw [e3, ok_bind]

/-- **C121** (the program dies). With stride 1 and any other window that fits into the padded delta, the first backward pass throws and nothing catches it. -/
theorem C121_dies (dist : Draws) (junk : Nat → Nat → ℝ) (img : Photo.Img) {nf sp pd : Nat} (lrate : ℝ) (hh : 0 < img.rows) (hw : 0 < img.cols) (hnf : 0 < nf) (hsp : 0 < sp) (hne : sp ≠ 2 * pd + 1)
    (fh : sp ≤ img.rows + 2 * pd) (fw : sp ≤ img.cols + 2 * pd)
    (hfit : 2 * sp ≤ img.rows + 4 * pd + 1 ∧ 2 * sp ≤ img.cols + 4 * pd + 1) (bb : img.rows + 4 * pd < 2 ^ 31 ∧ img.cols + 4 * pd < 2 ^ 31) :
    Photo.main dist junk img.cols img.rows nf sp 1 pd lrate img = .error .throw := by
  obtain ⟨L, c, h1, h2, h3, h4, h5, h6, h7, -, -⟩ := Conv.new_geo dist junk (h := img.rows) (w := img.cols) (pn := 3) (nf := nf) (sp := sp) (st := 1) (pd := pd) lrate Act.relu hh hw (by omega) hnf
    hsp (by omega) fh fw (by omega) (by omega)
  have S : Photo.Same img.rows img.cols nf sp pd L.W L c := ⟨h2, rfl, h3, h4, h5, h6, h7⟩
  obtain ⟨y, y1, y2, y3, hf⟩ := Photo.fwd junk img (nf := nf) (sp := sp) (pd := pd) (W := L.W)
  unfold Photo.main
  rw [show ((3 : Int)) = ((3 : Nat) : Int) from rfl, show ((1 : Int)) = ((1 : Nat) : Int) from rfl, h1, ok_bind]
  dsimp only
  rw [Photo.resizeimg_ok, ok_bind]
  obtain ⟨⟨o1, L1, c1⟩, e1, p1⟩ := loop_inv (n := 1000) (body := fun _ (s : Mat ℝ × Layer × Conv) => Conv.forwardprop junk s.2.1 s.2.2 (Photo.sample img)) (s := (Mat.empty, L, c))
    (fun i s => Photo.Same img.rows img.cols nf sp pd L.W s.2.1 s.2.2 ∧ (0 < i → s.1 = y ∧ Photo.Seen img pd s.2.2)) ⟨S, fun h => absurd h (by omega)⟩ (fun i s _ hs => by
      obtain ⟨L', c', g1, g2, g3⟩ := hf _ _ hs.1
      exact ⟨_, g1, g2, fun _ => ⟨rfl, g3⟩⟩)
  obtain ⟨rfl, q1⟩ := p1.2 (by omega)
  rw [e1, ok_bind]
  simp only
  have T := p1.1
  simp only at T q1 y1 y2
  have hthrow := C49_throws junk (L := L1) T.geo hne hfit bb (del := o1) (by omega) (I := fun _ => Conv.padImg (Photo.sample img) img.rows img.cols pd 2) (fun _ _ => ⟨rfl, rfl⟩)
    (by rw [q1, y1]; rfl) (by rw [T.w]; exact T.wr) (by rw [T.w]; exact T.wc) T.gr T.gc (by omega)
  rw [loop_error (k := 0) (e := .throw) (fun _ => (Mat.empty, L1, c1)) rfl (by omega) (fun i hi => absurd hi (by omega)) hthrow]
  rfl

/-- Cases of the hypotheses: a 640 x 480 photo, eight 5 x 5 filters, padding 2; and the same with padding 1. -/
example (dist : Draws) (junk : Nat → Nat → ℝ) (px : Nat → Nat → Nat → ℝ) := C121_runs_partial dist junk ⟨480, 640, px⟩ (nf := 8) (pd := 2) 0.01 (by norm_num) (by norm_num) (by norm_num) (by norm_num) (by norm_num)
example (dist : Draws) (junk : Nat → Nat → ℝ) (px : Nat → Nat → Nat → ℝ) := C121_dies dist junk ⟨480, 640, px⟩ (nf := 8) (sp := 5) (pd := 1) 0.01 (by norm_num) (by norm_num) (by norm_num) (by norm_num) (by norm_num)
  (by norm_num) (by norm_num) (by norm_num) (by norm_num)

end
end Nnet.NN
