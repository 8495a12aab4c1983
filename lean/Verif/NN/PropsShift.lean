import Verif.NN.PropsConv
import Mathlib.Tactic.IntervalCases
/-!
# C101: convolution and pooling move with the picture, and are linear
-/
namespace Nnet.NN
open Finset
noncomputable section

/-! ## Specification -/

/-- The picture `x'` shows the picture `x` (`pn` channels of `h x w` pixels) moved down by `a` and right by `b` on a black (zero) background, and nothing of `x` is moved out of sight. -/
def Spec.Shifted (h w pn a b : Nat) (x x' : Nat → ℝ) : Prop :=
  ∀ q r c, q < pn → r < h → c < w →
    (Spec.pixel h w 0 x' q r c = if a ≤ r ∧ b ≤ c then Spec.pixel h w 0 x q (r - a) (c - b) else 0) ∧ (h ≤ r + a ∨ w ≤ c + b → Spec.pixel h w 0 x q r c = 0)

/-- The maps `y'` are the maps `y` moved down by `a` and right by `b`, wherever both positions exist. -/
def Spec.MapsShifted (oh ow nf a b : Nat) (y y' : Nat → ℝ) : Prop :=
  ∀ k i j, k < nf → i + a < oh → j + b < ow → y' (k * (oh * ow) + (i + a) * ow + (j + b)) = y (k * (oh * ow) + i * ow + j)

/-! ## Lemmas -/

theorem pixel_unpad {h w pd : Nat} {x : Nat → ℝ} {q r c : Nat} :
    Spec.pixel h w pd x q r c = if pd ≤ r ∧ r < pd + h ∧ pd ≤ c ∧ c < pd + w then Spec.pixel h w 0 x q (r - pd) (c - pd) else 0 := by
  unfold Spec.pixel
  split
  · rw [if_pos (by omega)]; simp
  · rfl

theorem pixel_shifted {h w pn a b pd : Nat} {x x' : Nat → ℝ} (hs : Spec.Shifted h w pn a b x x') {q : Nat} (hq : q < pn) (r c : Nat) :
    Spec.pixel h w pd x' q (r + a) (c + b) = Spec.pixel h w pd x q r c := by
  rw [pixel_unpad (x := x'), pixel_unpad (x := x)]
  by_cases h1 : pd ≤ r + a ∧ r + a < pd + h ∧ pd ≤ c + b ∧ c + b < pd + w
  · rw [if_pos h1, (hs q (r + a - pd) (c + b - pd) hq (by omega) (by omega)).1]
    by_cases h2 : pd ≤ r ∧ pd ≤ c
    · rw [if_pos (by omega), if_pos (by omega)]
      congr 1 <;> omega
    · rw [if_neg (by omega), if_neg (by omega)]
  · rw [if_neg h1]
    by_cases h3 : pd ≤ r ∧ r < pd + h ∧ pd ≤ c ∧ c < pd + w
    · rw [if_pos h3, (hs q (r - pd) (c - pd) hq (by omega) (by omega)).2 (by omega)]
    · rw [if_neg h3]

theorem windowMax_unique {h w sp st : Nat} {x : Nat → ℝ} {k i j : Nat} {M M' : ℝ} (h1 : Spec.IsWindowMax h w sp st x k i j M) (h2 : Spec.IsWindowMax h w sp st x k i j M') : M = M' := by
  obtain ⟨a, u, v, hu, hv, e⟩ := h1
  obtain ⟨a', u', v', hu', hv', e'⟩ := h2
  exact le_antisymm (e ▸ a' u v hu hv) (e' ▸ a u' v' hu' hv')

theorem windowMax_shifted {h w pn a b sp : Nat} {x x' : Nat → ℝ} (hs : Spec.Shifted h w pn a b x x') {q i j : Nat} (hq : q < pn) {M : ℝ} (hM : Spec.IsWindowMax h w sp 1 x' q (i + a) (j + b) M) :
    Spec.IsWindowMax h w sp 1 x q i j M := by
  have e : ∀ u v, Spec.pixel h w 0 x' q ((i + a) * 1 + u) ((j + b) * 1 + v) = Spec.pixel h w 0 x q (i * 1 + u) (j * 1 + v) := by
    intro u v
    rw [← pixel_shifted hs hq (i * 1 + u) (j * 1 + v)]
    congr 1 <;> omega
  obtain ⟨h1, u, v, hu, hv, h2⟩ := hM
  exact ⟨fun u v hu hv => by rw [← e]; exact h1 u v hu hv, u, v, hu, hv, by rw [← e]; exact h2⟩

theorem pixel_linear {h w pd : Nat} {x y z : Nat → ℝ} {α β : ℝ} (hz : ∀ n, z n = α * x n + β * y n) (q r c : Nat) :
    Spec.pixel h w pd z q r c = α * Spec.pixel h w pd x q r c + β * Spec.pixel h w pd y q r c := by
  unfold Spec.pixel
  split
  · exact hz _
  · simp

theorem conv_shifted {h w pn a b sp pd : Nat} {x x' : Nat → ℝ} (hs : Spec.Shifted h w pn a b x x') (W : Mat ℝ) (k i j : Nat) :
    Spec.conv h w pn sp 1 pd W x' k (i + a) (j + b) = Spec.conv h w pn sp 1 pd W x k i j := by
  unfold Spec.conv
  refine sum_congr rfl fun q hq => sum_congr rfl fun u _ => sum_congr rfl fun v _ => ?_
  rw [← pixel_shifted hs (mem_range.1 hq) (i * 1 + u) (j * 1 + v), show (i + a) * 1 + u = i * 1 + u + a by omega, show (j + b) * 1 + v = j * 1 + v + b by omega]

/-! ## C101 -/

/-- **C101** (convolution, stride 1). Moving the picture moves all feature maps by the same amount, whatever the weights, the activation, the padding and the numbers of channels. -/
theorem C101_conv (junk : Nat → Nat → ℝ) {L : Layer} {c : Conv} {h w pn nf sp pd a b : Nat} (G : c.Geo h w pn nf sp 1 pd) {x x' : Mat ℝ}
    (hm : x.nr = 1) (hm' : x'.nr = 1) (hc : pn * (w * h) ≤ x.nc) (hc' : pn * (w * h) ≤ x'.nc) (hr : L.W.nr = sp * pn) (hcc : L.W.nc = sp * nf) (hs : Spec.Shifted h w pn a b (x.f 0) (x'.f 0)) :
    ∃ y y' s s', Conv.forwardprop junk L c x = .ok (y, s) ∧ Conv.forwardprop junk L c x' = .ok (y', s') ∧
      Spec.MapsShifted (Spec.outLen h sp 1 pd) (Spec.outLen w sp 1 pd) nf a b (y.f 0) (y'.f 0) := by
  obtain ⟨y, L1, c1, e1, -, -, m1⟩ := C47_forward_partial junk G hm hc hr hcc
  obtain ⟨y', L2, c2, e2, -, -, m2⟩ := C47_forward_partial junk G hm' hc' hr hcc
  refine ⟨y, y', _, _, e1, e2, fun k i j hk hi hj => ?_⟩
  have q1 := m1 k i j hk (by omega) (by omega)
  have q2 := m2 k (i + a) (j + b) hk hi hj
  have q3 := conv_shifted (sp := sp) (pd := pd) hs L.W k i j
  exact q2.trans ((congrArg L.actfunc.act q3).trans q1.symm)

/-- **C101** (max pooling). -/
theorem C101_maxpool (junk : Nat → Nat → ℝ) {L : Layer} {c : Conv} {h w nf sp st a b : Nat} (G : c.Geo h w nf nf sp st 0) (hact : L.actfunc.act = id) {x x' : Mat ℝ}
    (hm : x.nr = 1) (hm' : x'.nr = 1) (hc : nf * (w * h) ≤ x.nc) (hc' : nf * (w * h) ≤ x'.nc) (hs : Spec.Shifted h w nf a b (x.f 0) (x'.f 0)) :
    ∃ y y' s s', MaxPool.forwardprop junk L c x = .ok (y, s) ∧ MaxPool.forwardprop junk L c x' = .ok (y', s') ∧
      Spec.MapsShifted (Spec.outLen h sp st 0) (Spec.outLen w sp st 0) nf a b (y.f 0) (y'.f 0) := by
  obtain ⟨y, L1, c1, i1, e1, -, -, M1, p1, m1⟩ := C51_exact (L := L) junk G hact (x := x) (by omega) hc rfl rfl
  obtain ⟨y', L2, c2, i2, e2, -, -, M2, p2, m2⟩ := C51_exact (L := L) junk G hact (x := x') (by omega) hc' rfl rfl
  have hx : mixed x (h * w) = x.f 0 := by funext n; exact mixed_one hm _ n
  have hx' : mixed x' (h * w) = x'.f 0 := by funext n; exact mixed_one hm' _ n
  rw [hx] at p1
  rw [hx'] at p2
  refine ⟨y, y', _, _, e1, e2, fun k i j hk hi hj => ?_⟩
  rw [m1 0 (by omega) k i j hk (by omega) (by omega), m2 0 (by omega) k (i + a) (j + b) hk hi hj]
  refine sum_congr rfl fun q hq => ?_
  have hq := mem_range.1 hq
  rw [windowMax_unique (p1 q i j hq (by omega) (by omega)) (windowMax_shifted hs hq (p2 q (i + a) (j + b) hq hi hj))]

/-- **C101** (mean pooling). -/
theorem C101_meanpool (junk : Nat → Nat → ℝ) {L : Layer} {c : Conv} {h w nf sp st a b : Nat} (G : c.Geo h w nf nf sp st 0) (hact : L.actfunc.act = id) {x x' : Mat ℝ}
    (hm : x.nr = 1) (hm' : x'.nr = 1) (hc : nf * (w * h) ≤ x.nc) (hc' : nf * (w * h) ≤ x'.nc) (hs : Spec.Shifted h w nf a b (x.f 0) (x'.f 0)) :
    ∃ y y' s s', MeanPool.forwardprop junk L c x = .ok (y, s) ∧ MeanPool.forwardprop junk L c x' = .ok (y', s') ∧
      Spec.MapsShifted (Spec.outLen h sp st 0) (Spec.outLen w sp st 0) nf a b (y.f 0) (y'.f 0) := by
  obtain ⟨y, L1, c1, e1, -, -, m1⟩ := C52_exact (L := L) junk G hact (x := x) (by omega) hc rfl rfl
  obtain ⟨y', L2, c2, e2, -, -, m2⟩ := C52_exact (L := L) junk G hact (x := x') (by omega) hc' rfl rfl
  have hx : mixed x (h * w) = x.f 0 := by funext n; exact mixed_one hm _ n
  have hx' : mixed x' (h * w) = x'.f 0 := by funext n; exact mixed_one hm' _ n
  rw [hx] at m1
  rw [hx'] at m2
  refine ⟨y, y', _, _, e1, e2, fun k i j hk hi hj => ?_⟩
  rw [m1 0 (by omega) k i j hk (by omega) (by omega), m2 0 (by omega) k (i + a) (j + b) hk hi hj]
  refine sum_congr rfl fun q hq => ?_
  unfold Spec.windowMean
  congr 1
  refine sum_congr rfl fun u _ => sum_congr rfl fun v _ => ?_
  rw [← pixel_shifted hs (mem_range.1 hq) (i * 1 + u) (j * 1 + v)]
  congr 1 <;> omega

/-- **C101** (convolution is linear in the picture). With the identity activation the maps of `α x + β y` are `α` times the maps of `x` plus `β` times the maps of `y`. -/
theorem C101_conv_linear (junk : Nat → Nat → ℝ) {L : Layer} {c : Conv} {h w pn nf sp pd : Nat} (G : c.Geo h w pn nf sp 1 pd) (hact : L.actfunc.act = id) {x y z : Mat ℝ} {α β : ℝ}
    (hx : x.nr = 1) (hy : y.nr = 1) (hz : z.nr = 1) (cx : pn * (w * h) ≤ x.nc) (cy : pn * (w * h) ≤ y.nc) (cz : pn * (w * h) ≤ z.nc) (hr : L.W.nr = sp * pn) (hcc : L.W.nc = sp * nf)
    (he : ∀ n, z.f 0 n = α * x.f 0 n + β * y.f 0 n) :
    ∃ X Y Z s t u, Conv.forwardprop junk L c x = .ok (X, s) ∧ Conv.forwardprop junk L c y = .ok (Y, t) ∧ Conv.forwardprop junk L c z = .ok (Z, u) ∧
      ∀ n < nf * (Spec.outLen h sp 1 pd * Spec.outLen w sp 1 pd), Z.f 0 n = α * X.f 0 n + β * Y.f 0 n := by
  obtain ⟨X, L1, c1, e1, -, -, m1⟩ := C47_forward_partial junk G hx cx hr hcc
  obtain ⟨Y, L2, c2, e2, -, -, m2⟩ := C47_forward_partial junk G hy cy hr hcc
  obtain ⟨Z, L3, c3, e3, -, -, m3⟩ := C47_forward_partial junk G hz cz hr hcc
  refine ⟨X, Y, Z, _, _, _, e1, e2, e3, fun n hn => ?_⟩
  set oh := Spec.outLen h sp 1 pd with hoh
  set ow := Spec.outLen w sp 1 pd with how
  have hop : 0 < oh * ow := Nat.mul_pos (Conv.outLen_pos _ _ _ _) (Conv.outLen_pos _ _ _ _)
  have howp : 0 < ow := Conv.outLen_pos _ _ _ _
  have hk : n / (oh * ow) < nf := (Nat.div_lt_iff_lt_mul hop).2 hn
  have hi : n % (oh * ow) / ow < oh := (Nat.div_lt_iff_lt_mul howp).2 (Nat.mod_lt _ hop)
  have hj : n % (oh * ow) % ow < ow := Nat.mod_lt _ howp
  have hn' : n / (oh * ow) * (oh * ow) + n % (oh * ow) / ow * ow + n % (oh * ow) % ow = n := by
    have h1 := Nat.div_add_mod' (n % (oh * ow)) ow
    have h2 := Nat.div_add_mod' n (oh * ow)
    omega
  have a1 := m1 _ _ _ hk hi hj
  have a2 := m2 _ _ _ hk hi hj
  have a3 := m3 _ _ _ hk hi hj
  rw [hn', hact] at a1 a2 a3
  rw [a1, a2, a3]
  show Spec.conv _ _ _ _ _ _ _ _ _ _ _ = α * Spec.conv _ _ _ _ _ _ _ _ _ _ _ + β * Spec.conv _ _ _ _ _ _ _ _ _ _ _
  unfold Spec.conv
  simp only [mul_sum, ← sum_add_distrib]
  refine sum_congr rfl fun q _ => sum_congr rfl fun u _ => sum_congr rfl fun v _ => ?_
  rw [pixel_linear he]
  ring

/-- **C101** (mean pooling is linear in the picture). -/
theorem C101_meanpool_linear (junk : Nat → Nat → ℝ) {L : Layer} {c : Conv} {h w nf sp st : Nat} (G : c.Geo h w nf nf sp st 0) (hact : L.actfunc.act = id) {x y z : Mat ℝ} {α β : ℝ}
    (hx : x.nr = 1) (hy : y.nr = 1) (hz : z.nr = 1) (cx : nf * (w * h) ≤ x.nc) (cy : nf * (w * h) ≤ y.nc) (cz : nf * (w * h) ≤ z.nc) (he : ∀ n, z.f 0 n = α * x.f 0 n + β * y.f 0 n) :
    ∃ X Y Z s t u, MeanPool.forwardprop junk L c x = .ok (X, s) ∧ MeanPool.forwardprop junk L c y = .ok (Y, t) ∧ MeanPool.forwardprop junk L c z = .ok (Z, u) ∧
      ∀ n < nf * (Spec.outLen h sp st 0 * Spec.outLen w sp st 0), Z.f 0 n = α * X.f 0 n + β * Y.f 0 n := by
  obtain ⟨X, L1, c1, e1, -, -, m1⟩ := C52_exact (L := L) junk G hact (x := x) (by omega) cx rfl rfl
  obtain ⟨Y, L2, c2, e2, -, -, m2⟩ := C52_exact (L := L) junk G hact (x := y) (by omega) cy rfl rfl
  obtain ⟨Z, L3, c3, e3, -, -, m3⟩ := C52_exact (L := L) junk G hact (x := z) (by omega) cz rfl rfl
  refine ⟨X, Y, Z, _, _, _, e1, e2, e3, fun n hn => ?_⟩
  set oh := Spec.outLen h sp st 0 with hoh
  set ow := Spec.outLen w sp st 0 with how
  have hop : 0 < oh * ow := Nat.mul_pos (Conv.outLen_pos _ _ _ _) (Conv.outLen_pos _ _ _ _)
  have howp : 0 < ow := Conv.outLen_pos _ _ _ _
  have hk : n / (oh * ow) < nf := (Nat.div_lt_iff_lt_mul hop).2 hn
  have hi : n % (oh * ow) / ow < oh := (Nat.div_lt_iff_lt_mul howp).2 (Nat.mod_lt _ hop)
  have hj : n % (oh * ow) % ow < ow := Nat.mod_lt _ howp
  have hn' : n / (oh * ow) * (oh * ow) + n % (oh * ow) / ow * ow + n % (oh * ow) % ow = n := by
    have h1 := Nat.div_add_mod' (n % (oh * ow)) ow
    have h2 := Nat.div_add_mod' n (oh * ow)
    omega
  have a1 := m1 0 (by omega) _ _ _ hk hi hj
  have a2 := m2 0 (by omega) _ _ _ hk hi hj
  have a3 := m3 0 (by omega) _ _ _ hk hi hj
  rw [hn'] at a1 a2 a3
  rw [a1, a2, a3]
  have b1 : mixed x (h * w) = x.f 0 := by funext n; exact mixed_one hx _ n
  have b2 : mixed y (h * w) = y.f 0 := by funext n; exact mixed_one hy _ n
  have b3 : mixed z (h * w) = z.f 0 := by funext n; exact mixed_one hz _ n
  rw [b1, b2, b3]
  rw [mul_sum, mul_sum, ← sum_add_distrib]
  refine sum_congr rfl fun q _ => ?_
  unfold Spec.windowMean
  rw [← mul_div_assoc, ← mul_div_assoc, ← add_div]
  congr 1
  simp only [mul_sum, ← sum_add_distrib]
  refine sum_congr rfl fun u _ => sum_congr rfl fun v _ => ?_
  rw [pixel_linear he]

/-- A picture of one bright pixel in a black 3 x 3 image, moved down by 1 and right by 1. -/
example : Spec.Shifted 3 3 1 1 1 ((Mat.of 1 9 (fun _ n => if n = 0 then (5 : ℝ) else 0)).f 0) ((Mat.of 1 9 (fun _ n => if n = 4 then (5 : ℝ) else 0)).f 0) := by
  intro q r c hq hr hc
  obtain rfl : q = 0 := by omega
  interval_cases r <;> interval_cases c <;> simp [Spec.pixel, Mat.of]

/-- The hypotheses of `C101_conv` hold of a constructed layer (one input channel, two filters of size 2, padding 1) and those pictures; the bright pixel at (0, 0) of the first picture makes map value
`(0, 0)` its weight (1, 1), found at (1, 1) in the second. -/
example (dist : Draws) (junk : Nat → Nat → ℝ) : ∃ L c, Conv.new dist junk 3 3 1 2 2 1 1 0.1 Act.sigmoid = .ok (L, c) ∧
    ∃ y y' s s', Conv.forwardprop junk L c (Mat.of 1 9 (fun _ n => if n = 0 then (5 : ℝ) else 0)) = .ok (y, s) ∧ Conv.forwardprop junk L c (Mat.of 1 9 (fun _ n => if n = 4 then (5 : ℝ) else 0)) = .ok (y', s') ∧
      Spec.MapsShifted (Spec.outLen 3 2 1 1) (Spec.outLen 3 2 1 1) 2 1 1 (y.f 0) (y'.f 0) ∧ Spec.outLen 3 2 1 1 = 4 := by
  obtain ⟨L, c, h1, h2, h3, h4, -⟩ := C47_constructor dist junk (h := 3) (w := 3) (pn := 1) (nf := 2) (sp := 2) (st := 1) (pd := 1) 0.1 Act.sigmoid (by omega) (by omega) (by omega) (by omega) (by omega) (by omega)
    (by omega) (by omega) (by norm_num) (by norm_num)
  refine ⟨L, c, h1, ?_⟩
  obtain ⟨y, y', s, s', a1, a2, a3⟩ := C101_conv junk h2 (a := 1) (b := 1) (x := Mat.of 1 9 (fun _ n => if n = 0 then (5 : ℝ) else 0)) (x' := Mat.of 1 9 (fun _ n => if n = 4 then (5 : ℝ) else 0)) rfl rfl
    (by show 1 * (3 * 3) ≤ 9; omega) (by show 1 * (3 * 3) ≤ 9; omega) h3 h4 (by
      intro q r c hq hr hc
      obtain rfl : q = 0 := by omega
      interval_cases r <;> interval_cases c <;> simp [Spec.pixel, Mat.of])
  exact ⟨y, y', s, s', a1, a2, a3, by decide⟩

end
end Nnet.NN
