import Verif.NN.Special
import Verif.NN.PropsMatop
import Verif.NN.PropsInit
/-! # Lemmas about convolution and pooling layers -/
namespace Nnet.NN
open Finset
noncomputable section

theorem toI32_small {n : Nat} (h : n < 2 ^ 31) : toI32 n = n := by
  unfold toI32
  rw [Nat.mod_eq_of_lt (by omega)]
  push_cast
  omega

theorem outDim_ok {xn yn st : Nat} (h1 : yn ≤ xn) (h2 : xn < 2 ^ 31) (h3 : 0 < yn) :
    outDim xn yn st = (((xn - yn) / st + 1 : Nat) : Int) := by
  unfold outDim
  have e : (xn + 2 ^ 64 - yn) % 2 ^ 64 = xn - yn := by omega
  have hd : (xn - yn) / st ≤ xn - yn := Nat.div_le_self _ _
  rw [e, Nat.mod_eq_of_lt (by omega), toI32_small (by omega)]

namespace Conv

/-- The pixel in row `r`, column `c` of the image that `toimage` makes of channel `j` of an `m`-row batch. -/
def rawPix (pa : Mat ℝ) (h w j r c : Nat) : ℝ := pa.f ((r + c * h) % pa.nr) (j * (w * h) + (r + c * h) / pa.nr)

/-- The same with `pd` rows and columns of zeros around the image. -/
def padPix (pa : Mat ℝ) (h w pd j r c : Nat) : ℝ :=
  if pd ≤ r ∧ r < pd + h ∧ pd ≤ c ∧ c < pd + w then rawPix pa h w j (r - pd) (c - pd) else 0

theorem toimage_ok {pa : Mat ℝ} {h w j : Nat} (hm : 0 < pa.nr) (hh : 0 < h) (hw : 0 < w) (hc : (j + 1) * (w * h) ≤ pa.nc) :
    toimage pa j w h = .ok (Mat.of h w (rawPix pa h w j)) := by
  unfold toimage
  simp only
  have hs : 0 < w * h := Nat.mul_pos hw hh
  have e1 : ((j : Int) * ((w : Int) * h)) = ((j * (w * h) : Nat) : Int) := by push_cast; ring
  have e2 : (((j : Int) + 1) * ((w : Int) * h) - 1) = ((j * (w * h) + (w * h - 1) : Nat) : Int) := by
    rw [Nat.cast_add, Nat.cast_sub (by omega)]; push_cast; ring
  have e3 : (j + 1) * (w * h) = j * (w * h) + w * h := by ring
  rw [e1, e2]
  unfold Mat.cols
  rw [if_pos (by omega), ok_bind, if_pos (by omega)]
  congr 1
  unfold Mat.reshape
  simp only [Mat.of_nr, Mat.of_nc, Int.toNat_natCast]
  have e4 : (((j * (w * h) + (w * h - 1) : Nat) : Int) - ((j * (w * h) : Nat) : Int) + 1).toNat = w * h := by omega
  rw [e4]
  apply Mat.of_congr
  intro r c hr hcc
  have hk : r + c * h < w * h := by
    calc r + c * h < h + c * h := by omega
      _ = (c + 1) * h := by ring
      _ ≤ w * h := Nat.mul_le_mul_right _ hcc
  have hk2 : r + c * h < pa.nr * (w * h) := lt_of_lt_of_le hk (Nat.le_mul_of_pos_left _ hm)
  rw [if_pos hk2, Mat.of_f' (Nat.mod_lt _ hm) (lt_of_le_of_lt (Nat.div_le_self _ _) hk)]
  unfold rawPix
  rw [Nat.add_comm (j * (w * h))]

theorem addcols_front (m : Mat ℝ) : addcols m 0 0 = .ok (Mat.of m.nr (m.nc + 1) (fun i j => if j = 0 then 0 else m.f i (j - 1))) := by
  unfold addcols
  rw [constMat_eq, Mat.insertCols_ok (le_refl _) (by omega) (Mat.of_nr _ _ _)]
  congr 1
  apply Mat.of_congr
  intro i j hi hj
  simp only [Mat.of_nc, Int.toNat_zero, Nat.not_lt_zero, if_false, Nat.sub_zero, Nat.zero_add]
  by_cases h : j = 0
  · rw [if_pos (by omega), if_pos h, Mat.of_f' hi (by omega)]
  · rw [if_neg (by omega), if_neg h]

theorem addcols_back (m : Mat ℝ) : addcols m m.nc 0 = .ok (Mat.of m.nr (m.nc + 1) (fun i j => m.f i j)) := by
  unfold addcols
  rw [constMat_eq, Mat.insertCols_ok (by omega) (le_refl _) (Mat.of_nr _ _ _)]
  congr 1
  apply Mat.of_congr
  intro i j hi hj
  simp only [Mat.of_nc, Int.toNat_natCast]
  rw [Mat.of_nc] at hj
  by_cases h : j < m.nc
  · rw [if_pos h]
  · rw [if_neg h, if_pos hj, Mat.of_f' hi (by omega), m.out _ _ (by omega)]

theorem addrows_front (m : Mat ℝ) : addrows m 0 0 = .ok (Mat.of (m.nr + 1) m.nc (fun i j => if i = 0 then 0 else m.f (i - 1) j)) := by
  unfold addrows
  rw [constMat_eq, Mat.insertRows_ok (le_refl _) (by omega) (Mat.of_nc _ _ _)]
  congr 1
  apply Mat.of_congr
  intro i j hi hj
  simp only [Mat.of_nr, Int.toNat_zero, Nat.not_lt_zero, if_false, Nat.sub_zero, Nat.zero_add]
  by_cases h : i = 0
  · rw [if_pos (by omega), if_pos h, Mat.of_f' (by omega) hj]
  · rw [if_neg (by omega), if_neg h]

theorem addrows_back (m : Mat ℝ) : addrows m m.nr 0 = .ok (Mat.of (m.nr + 1) m.nc (fun i j => m.f i j)) := by
  unfold addrows
  rw [constMat_eq, Mat.insertRows_ok (by omega) (le_refl _) (Mat.of_nc _ _ _)]
  congr 1
  apply Mat.of_congr
  intro i j hi hj
  simp only [Mat.of_nr, Int.toNat_natCast]
  rw [Mat.of_nr] at hi
  by_cases h : i < m.nr
  · rw [if_pos h]
  · rw [if_neg h, if_pos hi, Mat.of_f' (by omega) hj, m.out _ _ (by omega)]

/-- Padding an `h x w` image given by `g`. -/
theorem addzeropadding_ok (pd h w : Nat) (g : Nat → Nat → ℝ) :
    addzeropadding pd (Mat.of h w g) =
      .ok (Mat.of (h + 2 * pd) (w + 2 * pd) (fun r c => if pd ≤ r ∧ r < pd + h ∧ pd ≤ c ∧ c < pd + w then g (r - pd) (c - pd) else 0)) := by
  unfold addzeropadding
  rw [Int.toNat_natCast]
  rw [loop_eq (fun t => Mat.of (h + 2 * t) w (fun r c => if t ≤ r ∧ r < t + h then g (r - t) c else 0))]
  · rw [ok_bind]
    rw [loop_eq (fun t => Mat.of (h + 2 * pd) (w + 2 * t) (fun r c => if pd ≤ r ∧ r < pd + h ∧ t ≤ c ∧ c < t + w then g (r - pd) (c - t) else 0))]
    · refine Mat.ext' rfl rfl ?_
      intro i j (hi : i < h + 2 * pd) (hj : j < w + 2 * 0)
      rw [Mat.of_f' hi hj, Mat.of_f' hi (by omega)]
      by_cases hc : pd ≤ i ∧ i < pd + h
      · rw [if_pos (by omega), if_pos hc]; simp
      · rw [if_neg (by omega), if_neg hc]
    · intro t ht
      rw [addcols_front, ok_bind, addcols_back]
      simp only [Mat.of_nr, Mat.of_nc]
      congr 1
      refine Mat.ext' rfl (by simp only [Mat.of_nc]; omega) ?_
      intro i j (hi : i < h + 2 * pd) (hj : j < w + 2 * t + 1 + 1)
      rw [Mat.of_f' hi hj, Mat.of_f' (c := w + 2 * (t + 1)) hi (by omega)]
      by_cases h1 : j < w + 2 * t + 1
      · rw [Mat.of_f' hi h1]
        by_cases h2 : j = 0
        · rw [if_pos h2, if_neg (by omega)]
        · rw [if_neg h2, Mat.of_f' hi (by omega)]
          by_cases h3 : pd ≤ i ∧ i < pd + h ∧ t ≤ j - 1 ∧ j - 1 < t + w
          · rw [if_pos h3, if_pos (by omega)]
            rw [show j - 1 - t = j - (t + 1) by omega]
          · rw [if_neg h3, if_neg (by omega)]
      · rw [Mat.of_f, if_neg (by omega), if_neg (by omega)]
  · refine Mat.ext' rfl rfl ?_
    intro i j (hi : i < h + 2 * 0) (hj : j < w)
    rw [Mat.of_f' hi hj, Mat.of_f' (by omega) hj, if_pos (by omega)]
    simp
  · intro t ht
    rw [addrows_front, ok_bind, addrows_back]
    simp only [Mat.of_nr, Mat.of_nc]
    congr 1
    refine Mat.ext' (by simp only [Mat.of_nr]; omega) rfl ?_
    intro i j (hi : i < h + 2 * t + 1 + 1) (hj : j < w)
    rw [Mat.of_f' hi hj, Mat.of_f' (r := h + 2 * (t + 1)) (by omega) hj]
    by_cases h1 : i < h + 2 * t + 1
    · rw [Mat.of_f' h1 hj]
      by_cases h2 : i = 0
      · rw [if_pos h2, if_neg (by omega)]
      · rw [if_neg h2, Mat.of_f' (by omega) hj]
        by_cases h3 : t ≤ i - 1 ∧ i - 1 < t + h
        · rw [if_pos h3, if_pos (by omega)]
          rw [show i - 1 - t = i - (t + 1) by omega]
        · rw [if_neg h3, if_neg (by omega)]
    · rw [Mat.of_f, if_neg (by omega), if_neg (by omega)]

theorem spatialBlock_ok {W : Mat ℝ} {sp j k : Nat} (h0 : 0 < sp) (h1 : (j + 1) * sp ≤ W.nr) (h2 : (k + 1) * sp ≤ W.nc) :
    spatialBlock sp W j k = .ok (Mat.of sp sp (fun u v => W.f (j * sp + u) (k * sp + v))) := by
  unfold spatialBlock
  have a1 : ((j : Int) + 1) * sp - 1 = ((j * sp + (sp - 1) : Nat) : Int) := by rw [Nat.cast_add, Nat.cast_sub h0]; push_cast; ring
  have a2 : ((k : Int) + 1) * sp - 1 = ((k * sp + (sp - 1) : Nat) : Int) := by rw [Nat.cast_add, Nat.cast_sub h0]; push_cast; ring
  have b1 : (j : Int) * sp = ((j * sp : Nat) : Int) := by push_cast; rfl
  have b2 : (k : Int) * sp = ((k * sp : Nat) : Int) := by push_cast; rfl
  have c1 : (j + 1) * sp = j * sp + sp := by ring
  have c2 : (k + 1) * sp = k * sp + sp := by ring
  rw [a1, a2, b1, b2, Mat.submat_ok (by unfold Mat.InView; omega)]
  congr 1
  have d1 : (((j * sp + (sp - 1) : Nat) : Int) - ((j * sp : Nat) : Int) + 1).toNat = sp := by omega
  have d2 : (((k * sp + (sp - 1) : Nat) : Int) - ((k * sp : Nat) : Int) + 1).toNat = sp := by omega
  rw [d1, d2]
  apply Mat.of_congr
  intro u v _ _
  rw [Int.toNat_natCast, Int.toNat_natCast, Nat.add_comm u, Nat.add_comm v]

/-- The window sum of `x` at `(i, j)` with the kernel `y`. -/
def winSum (x y : Mat ℝ) (i j : Nat) : ℝ := ∑ u ∈ range y.nr, ∑ v ∈ range y.nc, x.f (i + u) (j + v) * y.f u v

theorem ceil_mul_le {n st t : Nat} (hst : 0 < st) (ht : t < (n + st - 1) / st) : t * st < n := by
  have h := Nat.mul_le_of_le_div _ _ _ (show t + 1 ≤ _ from ht)
  have e : (t + 1) * st = t * st + st := by ring
  omega

theorem le_ceil_mul {n st : Nat} (hst : 0 < st) : n ≤ (n + st - 1) / st * st := by
  have h := Nat.lt_div_mul_add hst (a := n + st - 1)
  omega

/-- One window of `convolve`. -/
theorem convolve_win {x y o : Mat ℝ} {i j ow : Nat} (hy1 : 0 < y.nr) (hy2 : 0 < y.nc) (hi : i + y.nr ≤ x.nr) (hj : j + y.nc ≤ x.nc)
    (ho : o.nr = 1) (hc : i * ow + j < o.nc) :
    (do
      let win ← x.submat i j (i + y.nr - 1) (j + y.nc - 1)
      let result ← win.schur y
      o.setAt 0 ((i : Int) * ow + j) (sumall result) : Res (Mat ℝ)) =
    .ok (Mat.of o.nr o.nc (fun p q => if p = 0 ∧ q = i * ow + j then winSum x y i j else o.f p q)) := by
  rw [Mat.submat_ok (by unfold Mat.InView; omega), ok_bind,
    Mat.schur_ok (by simp only [Mat.of_nr]; omega) (by simp only [Mat.of_nc]; omega), ok_bind,
    Mat.setAt_ok (a := 0) (b := i * ow + j) _ (by simp) (by push_cast; rfl) (by omega) hc]
  have e1 : ((i : Int) + y.nr - 1 - i + 1).toNat = y.nr := by omega
  have e2 : ((j : Int) + y.nc - 1 - j + 1).toNat = y.nc := by omega
  have hv : sumall (Mat.of (Mat.of ((i : Int) + y.nr - 1 - i + 1).toNat ((j : Int) + y.nc - 1 - j + 1).toNat
      (fun a b => x.f (a + (i : Int).toNat) (b + (j : Int).toNat))).nr
      (Mat.of ((i : Int) + y.nr - 1 - i + 1).toNat ((j : Int) + y.nc - 1 - j + 1).toNat
      (fun a b => x.f (a + (i : Int).toNat) (b + (j : Int).toNat))).nc (fun a b =>
        (Mat.of ((i : Int) + y.nr - 1 - i + 1).toNat ((j : Int) + y.nc - 1 - j + 1).toNat
      (fun a b => x.f (a + (i : Int).toNat) (b + (j : Int).toNat))).f a b * y.f a b)) = winSum x y i j := by
    unfold sumall
    simp only [Mat.of_nr, Mat.of_nc, e1, e2, Int.toNat_natCast]
    rw [Mat.accu_of]
    unfold winSum
    refine sum_congr rfl fun a ha => sum_congr rfl fun b hb => ?_
    rw [Mat.of_f' (mem_range.1 ha) (mem_range.1 hb), Nat.add_comm a, Nat.add_comm b]
  rw [hv]

/-- `convolve` for every stride: the window sum at `(i, j)`, not `(i*stride, j*stride)`, is stored at position `(i, j)` of the output,
and only for multiples of the stride. -/
theorem convolve_ok (junk : Nat → Nat → ℝ) {st : Nat} (hst : 0 < st) {x y : Mat ℝ} (hy1 : 0 < y.nr) (hy2 : 0 < y.nc) (h1 : y.nr ≤ x.nr)
    (h2 : y.nc ≤ x.nc) (b1 : x.nr < 2 ^ 31) (b2 : x.nc < 2 ^ 31) {oh ow : Nat} (hoh : oh = (x.nr - y.nr) / st + 1)
    (how : ow = (x.nc - y.nc) / st + 1) :
    convolve junk st x y = .ok (Mat.of 1 (oh * ow) (fun _ q =>
      if st ∣ q / ow ∧ st ∣ q % ow then winSum x y (q / ow) (q % ow) else junk 0 q)) := by
  unfold convolve
  have hpos : 0 < ow := by rw [how]; exact Nat.succ_pos _
  have hlei : ∀ i, i < oh → i + y.nr ≤ x.nr := by
    intro i hi
    have := Nat.div_le_self (x.nr - y.nr) st
    omega
  have hlej : ∀ j, j < ow → j + y.nc ≤ x.nc := by
    intro i hi
    have := Nat.div_le_self (x.nc - y.nc) st
    omega
  rw [if_neg (by omega), if_neg (by omega)]
  simp only [Int.toNat_natCast]
  rw [outDim_ok h2 b2 hy2, outDim_ok h1 b1 hy1, ← hoh, ← how]
  unfold Mat.mk'
  rw [if_pos ⟨by omega, by positivity⟩, ok_bind]
  have eD : ((ow : Int) * oh).toNat = oh * ow := by rw [← Nat.cast_mul, Int.toNat_natCast, Nat.mul_comm]
  rw [eD]
  unfold stepLoop
  simp only [Int.toNat_natCast, Int.toNat_one]
  -- the state
  let S : Nat → Nat → Mat ℝ := fun t t' => Mat.of 1 (oh * ow) (fun _ q =>
    if (st ∣ q / ow ∧ st ∣ q % ow) ∧ (q / ow < t * st ∨ (q / ow = t * st ∧ q % ow < t' * st)) then winSum x y (q / ow) (q % ow) else junk 0 q)
  rw [loop_eq (fun t => S t 0)]
  · congr 1
    apply Mat.of_congr
    intro p q _ hq
    have hq' : q / ow < oh := Nat.div_lt_of_lt_mul (by rw [Nat.mul_comm]; exact hq)
    have hle := le_ceil_mul (n := oh) hst
    by_cases hc : st ∣ q / ow ∧ st ∣ q % ow
    · rw [if_pos ⟨hc, Or.inl (lt_of_lt_of_le hq' hle)⟩, if_pos hc]
    · rw [if_neg (fun hh => hc hh.1), if_neg hc]
  · apply Mat.of_congr
    intro p q hp _
    rw [if_neg (by simp)]
    rw [show p = 0 by omega]
  · intro t ht
    have hti : t * st < oh := ceil_mul_le hst ht
    rw [loop_eq (fun t' => S t t')]
    · -- end of a row
      congr 1
      apply Mat.of_congr
      intro p q _ hq
      have hm : q % ow < ow := Nat.mod_lt _ hpos
      have hle := le_ceil_mul (n := ow) hst
      by_cases hc : st ∣ q / ow ∧ st ∣ q % ow
      · have e : (q / ow < t * st ∨ (q / ow = t * st ∧ q % ow < (ow + st - 1) / st * st)) ↔
            (q / ow < (t + 1) * st ∨ (q / ow = (t + 1) * st ∧ q % ow < 0 * st)) := by
          obtain ⟨d, hd⟩ := hc.1
          have e1 : t * st = st * t := Nat.mul_comm _ _
          have e2 : (t + 1) * st = st * (t + 1) := Nat.mul_comm _ _
          rw [hd, e1, e2, Nat.mul_lt_mul_left hst, Nat.mul_lt_mul_left hst, Nat.mul_right_inj (by omega), Nat.mul_right_inj (by omega)]
          constructor
          · rintro (h | h) <;> omega
          · rintro (h | h) <;> omega
        by_cases hc2 : (q / ow < t * st ∨ (q / ow = t * st ∧ q % ow < (ow + st - 1) / st * st))
        · rw [if_pos ⟨hc, hc2⟩, if_pos ⟨hc, e.1 hc2⟩]
        · rw [if_neg (fun hh => hc2 hh.2), if_neg (fun hh => hc2 (e.2 hh.2))]
      · rw [if_neg (fun hh => hc hh.1), if_neg (fun hh => hc hh.1)]
    · rfl
    · intro t' ht'
      have htj : t' * st < ow := ceil_mul_le hst ht'
      have hin : t * st * ow + t' * st < oh * ow := by
        calc t * st * ow + t' * st < t * st * ow + ow := by omega
          _ = (t * st + 1) * ow := by ring
          _ ≤ oh * ow := Nat.mul_le_mul_right _ hti
      have := convolve_win (x := x) (y := y) (o := S t t') (i := t * st) (j := t' * st) (ow := ow) hy1 hy2 (hlei _ hti) (hlej _ htj) rfl hin
      rw [this]
      congr 1
      apply Mat.of_congr
      intro p q (hp : p < 1) (hq : q < oh * ow)
      have hm : q % ow < ow := Nat.mod_lt _ hpos
      have hdm : q / ow * ow + q % ow = q := Nat.div_add_mod' q ow
      by_cases he : q = t * st * ow + t' * st
      · have hd : q / ow = t * st := by
          rw [he, Nat.add_comm, Nat.add_mul_div_right _ _ hpos, Nat.div_eq_of_lt htj, Nat.zero_add]
        have hmm : q % ow = t' * st := by
          rw [he, Nat.add_comm, Nat.add_mul_mod_self_right, Nat.mod_eq_of_lt htj]
        have e : (t' + 1) * st = t' * st + st := by ring
        rw [if_pos ⟨by omega, he⟩, hd, hmm, if_pos ⟨⟨⟨t, Nat.mul_comm _ _⟩, ⟨t', Nat.mul_comm _ _⟩⟩, Or.inr ⟨rfl, by omega⟩⟩]
      · rw [if_neg (fun hh => he hh.2)]
        show (S t t').f p q = _
        rw [Mat.of_f' hp hq]
        have e : ((st ∣ q / ow ∧ st ∣ q % ow) ∧ (q / ow < t * st ∨ (q / ow = t * st ∧ q % ow < t' * st))) ↔
            ((st ∣ q / ow ∧ st ∣ q % ow) ∧ (q / ow < t * st ∨ (q / ow = t * st ∧ q % ow < (t' + 1) * st))) := by
          constructor
          · rintro ⟨hc, h | h⟩
            · exact ⟨hc, Or.inl h⟩
            · exact ⟨hc, Or.inr ⟨h.1, lt_of_lt_of_le h.2 (Nat.mul_le_mul_right _ (by omega))⟩⟩
          · rintro ⟨hc, h | h⟩
            · exact ⟨hc, Or.inl h⟩
            · refine ⟨hc, Or.inr ⟨h.1, ?_⟩⟩
              obtain ⟨d, hd⟩ := hc.2
              have e1 : (t' + 1) * st = st * (t' + 1) := Nat.mul_comm _ _
              have h3 := h.2
              rw [hd, e1, Nat.mul_lt_mul_left hst] at h3
              have hne : d ≠ t' := by
                intro hdt
                apply he
                rw [← hdm, h.1, hd, hdt, Nat.mul_comm st t']
              rw [hd, Nat.mul_comm t' st, Nat.mul_lt_mul_left hst]
              omega
        simp only [e]

end Conv
end
end Nnet.NN
