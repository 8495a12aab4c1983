import Verif.NN.PropsFloatSoftmax
/-!
# C75: costs in floating point
-/
namespace Nnet.NN.Flt
open FV Arith Ieee Spec

section
variable {F : Type}

theorem mem_elems [Arith F] {m : Mat F} {x : F} : x ∈ elems m ↔ ∃ i j, i < m.nr ∧ j < m.nc ∧ x = m.f i j := by
  unfold elems
  simp only [List.mem_flatMap, List.mem_map, List.mem_range]
  constructor
  · rintro ⟨j, hj, i, hi, rfl⟩; exact ⟨i, j, hi, hj, rfl⟩
  · rintro ⟨i, j, hi, hj, rfl⟩; exact ⟨j, hj, i, hi, rfl⟩

theorem length_elems [Arith F] (m : Mat F) : (elems m).length = m.nr * m.nc := by
  unfold elems
  rw [List.length_flatMap]
  simp [Nat.mul_comm]

variable [Ieee F]

theorem sumall_nan {m : Mat F} {i j : Nat} (hi : i < m.nr) (hj : j < m.nc) (h : NaN (m.f i j)) : NaN (sumall m) := total_nan _ ⟨_, mem_elems.2 ⟨i, j, hi, hj, rfl⟩, h⟩

theorem computecost_spec {n : Net F} {pred y : Mat F} {c : F} (h : n.computecost pred y = .ok c) : ∃ J, n.output.cost y pred = .ok J ∧ c = sumall J := by
  obtain ⟨J, h1, h⟩ := bind_eq_ok h
  cases h
  exact ⟨J, h1, rfl⟩

theorem sub_zero_of {x y : F} {a : ℝ} (hx : val x = fin a) (hy : val y = fin a) : val (x - y) = fin 0 := by
  rw [val_sub, hx, hy]
  show Ieee.rnd F (a + -a) = fin 0
  rw [add_neg_cancel, rnd_0]

theorem log_zero {x : F} (h : val x = fin 0) : val (log x) = ninf := by
  have := val_log x
  rw [h] at this
  exact this.2.1 rfl

theorem zero_mul_ninf {x y : F} (hx : val x = fin 0) (hy : val y = ninf) : NaN (x * y) := by
  rw [Spec.NaN, val_mul, hx, hy]
  simp [FV.mul, infSign]

/-! ## Saturation of `sigmoid` -/

theorem sigmoid_one {z : F} {a : ℝ} (h : val z = fin a) (ha : 38 ≤ a) : val (Act.sigmoidF z) = fin 1 := by
  have he := val_exp (-z)
  rw [neg_fin h] at he
  obtain ⟨q, hq, h1, h2⟩ := Le_fin he.1 (he.2.2.2.2.1 (by linarith))
  have hs : val (1 + exp (-z)) = fin 1 := by
    rw [val_add, val_one, hq]
    exact (Ieee.rounding (F := F)).one _ (by linarith) (by linarith)
  have := div_fin (F := F) val_one hs one_ne_zero
  rwa [div_one, rnd_1] at this

theorem sigmoid_zero {z : F} {a : ℝ} (h : val z = fin a) (ha : a ≤ -710) : val (Act.sigmoidF z) = fin 0 := by
  have he := exp_over (z := -z) (by rw [neg_fin h]; show (710 : ℝ) ≤ -a; linarith)
  have hs : val (1 + exp (-z)) = pinf := by rw [val_add, val_one, he]; rfl
  have hd := val_div 1 (1 + exp (-z))
  rw [val_one, hs] at hd
  exact hd

/-! ## Cross entropy -/

theorem crossentropy_elem {y h J : Mat F} (hJ : CrossEntropy.cost y h = .ok J) : y.nr = h.nr ∧ y.nc = h.nc ∧ J.nr = y.nr ∧ J.nc = y.nc ∧ ∀ i j, i < y.nr → j < y.nc →
    J.f i j = -(y.f i j * log (h.f i j) + (1 - y.f i j) * log (1 - h.f i j)) / lit y.nr := by
  obtain ⟨s, h1, hJ⟩ := bind_eq_ok hJ
  obtain ⟨t, h2, hJ⟩ := bind_eq_ok hJ
  obtain ⟨u, h3, hJ⟩ := bind_eq_ok hJ
  cases hJ
  obtain ⟨a1, a2, a3, a4, a5⟩ := zip_spec h1
  obtain ⟨b1, b2, b3, b4, b5⟩ := zip_spec h2
  obtain ⟨c1, c2, c3, c4, c5⟩ := zip_spec h3
  simp only [logorithm, Mat.map_nr, Mat.map_nc] at a1 a2 a5 b1 b2 b3 b4 b5
  refine ⟨a1, a2, by simp only [divN, Mat.map_nr]; omega, by simp only [divN, Mat.map_nc]; omega, fun i j hi hj => ?_⟩
  rw [divN, Mat.map_f' (by simp only [Mat.map_nr]; omega) (by simp only [Mat.map_nc]; omega), Mat.map_f' (by omega) (by omega), c5 i j (by omega) (by omega), a5 i j hi hj, b5 i j hi hj,
    Mat.map_f' (m := h) (by omega) (by omega), Mat.map_f' (m := y) hi hj, Mat.map_f' (m := h.map fun v => 1 - v) (by simp only [Mat.map_nr]; omega) (by simp only [Mat.map_nc]; omega),
    Mat.map_f' (m := h) (by omega) (by omega)]

/-- The cross entropy cost of an exactly right answer is NaN: as soon as for one element the label and the prediction are both 1 or both 0, the whole cost is NaN. -/
theorem C75_crossentropy {n : Net F} {pred y : Mat F} {c : F} (hc : n.output.cost = CrossEntropy.cost) (h : n.computecost pred y = .ok c) {i j : Nat} (hi : i < y.nr) (hj : j < y.nc)
    (hij : (val (y.f i j) = fin 1 ∧ val (pred.f i j) = fin 1) ∨ (val (y.f i j) = fin 0 ∧ val (pred.f i j) = fin 0)) : NaN c := by
  obtain ⟨J, h1, rfl⟩ := computecost_spec h
  rw [hc] at h1
  obtain ⟨_, _, e1, e2, e3⟩ := crossentropy_elem h1
  refine sumall_nan (i := i) (j := j) (by omega) (by omega) ?_
  rw [e3 i j hi hj]
  refine div_nan (.inl (neg_nan (add_nan ?_)))
  rcases hij with ⟨hy, hp⟩ | ⟨hy, hp⟩
  · exact .inr (zero_mul_ninf (sub_zero_of val_one hy) (log_zero (sub_zero_of val_one hp)))
  · exact .inl (zero_mul_ninf hy (log_zero hp))

/-- And `sigmoid`, the activation of a cross entropy output, is exactly 1 from 38 on and exactly 0 up to -710: a confident right answer makes the cost NaN, while its contribution to the gradient, `(a - y) / rows`, is 0. -/
theorem C75_crossentropy_saturated {n : Net F} {pred y : Mat F} {c : F} (hc : n.output.cost = CrossEntropy.cost) (h : n.computecost pred y = .ok c) {i j : Nat} (hi : i < y.nr) (hj : j < y.nc)
    {z : F} {a : ℝ} (hz : val z = fin a) (hp : pred.f i j = Act.sigmoidF z) (hij : (val (y.f i j) = fin 1 ∧ 38 ≤ a) ∨ (val (y.f i j) = fin 0 ∧ a ≤ -710)) :
    NaN c ∧ val (pred.f i j - y.f i j) = fin 0 := by
  have h1 : (val (y.f i j) = fin 1 ∧ val (pred.f i j) = fin 1) ∨ (val (y.f i j) = fin 0 ∧ val (pred.f i j) = fin 0) := by
    rw [hp]
    rcases hij with ⟨h1, h2⟩ | ⟨h1, h2⟩
    · exact .inl ⟨h1, sigmoid_one hz h2⟩
    · exact .inr ⟨h1, sigmoid_zero hz h2⟩
  refine ⟨C75_crossentropy hc h hi hj h1, ?_⟩
  rcases h1 with ⟨h1, h2⟩ | ⟨h1, h2⟩
  · exact sub_zero_of h2 h1
  · exact sub_zero_of h2 h1

theorem log_num {x : F} {a : ℝ} (h : val x = fin a) (ha : 0 < a) : Between (-1000) 1000 (log x) := by
  have hl := val_log x
  rw [h] at hl
  obtain ⟨q, hq, hb⟩ := hl.2.2.1 ha
  exact ⟨q, hq, (abs_le.1 hb).1, (abs_le.1 hb).2⟩

theorem lit_nat {n : ℕ} (h : n ≤ 2 ^ 53) : val (lit (n : ℚ) : F) = fin (n : ℝ) := by
  rw [val_lit]
  have := rnd_int (F := F) (n : ℤ) (by rw [abs_of_nonneg (by omega)]; exact_mod_cast h)
  simpa using this

theorem div_between_nat {x : F} {n : ℕ} {k : ℤ} (hx : Between (-k) k x) (hk : 0 ≤ k) (hk2 : k ≤ 2 ^ 53) (h0 : 0 < n) (hn : n ≤ 2 ^ 53) : Between (-k) k (x / lit n) := by
  obtain ⟨a, ha, h1, h2⟩ := hx
  have hn1 : (1 : ℝ) ≤ n := by exact_mod_cast h0
  have hkR : (0 : ℝ) ≤ k := by exact_mod_cast hk
  have hd := div_fin ha (lit_nat (F := F) hn) (by linarith)
  obtain ⟨q, hq, q1, q2⟩ := rnd_between (F := F) (r := a / n) (a := -k) (b := k) (by rw [abs_neg, abs_of_nonneg hk]; exact hk2) (by rw [abs_of_nonneg hk]; exact hk2)
    (by push_cast; rw [le_div_iff₀ (by linarith)]; nlinarith) (by rw [div_le_iff₀ (by linarith)]; nlinarith)
  exact ⟨q, hd.trans hq, by simpa using q1, q2⟩

/-- Otherwise the cost is a number: labels between 0 and 1 and predictions `p` for which `p` and `1 - p` are positive numbers. -/
theorem C75_crossentropy_safe {n : Net F} {pred y : Mat F} (hc : n.output.cost = CrossEntropy.cost) (hnr : y.nr = pred.nr) (hnc : y.nc = pred.nc) (hsz : y.nr * y.nc < 2 ^ 50) (hr : y.nr ≤ 2 ^ 53)
    (hy : ∀ i j, i < y.nr → j < y.nc → Between 0 1 (y.f i j))
    (hp : ∀ i j, i < y.nr → j < y.nc → (∃ q, 0 < q ∧ val (pred.f i j) = fin q) ∧ ∃ q, 0 < q ∧ val (1 - pred.f i j) = fin q) : ∃ c, n.computecost pred y = .ok c ∧ Number c := by
  have hJ : ∃ J, CrossEntropy.cost y pred = .ok J := by
    unfold CrossEntropy.cost
    rw [Mat.zip_ok (b := logorithm pred) hnr hnc, ok_bind, Mat.zip_ok (b := logorithm (pred.map fun v => 1 - v)) (by exact hnr) (by exact hnc), ok_bind, Mat.zip_ok (by rfl) (by rfl), ok_bind]
    exact ⟨_, rfl⟩
  obtain ⟨J, hJ⟩ := hJ
  obtain ⟨_, _, e1, e2, e3⟩ := crossentropy_elem hJ
  refine ⟨sumall J, by unfold Net.computecost; rw [hc, hJ]; rfl, ?_⟩
  have hel : ∀ x ∈ elems J, ∃ a, val x = fin a ∧ |a| ≤ 2000 := by
    intro x hx
    obtain ⟨i, j, hi, hj, rfl⟩ := mem_elems.1 hx
    rw [e1] at hi
    rw [e2] at hj
    obtain ⟨⟨p, hp0, hpv⟩, q, hq0, hqv⟩ := hp i j hi hj
    obtain ⟨b, hb, b1, b2⟩ := hy i j hi hj
    obtain ⟨l, hl, l1, l2⟩ := log_num hpv hp0
    obtain ⟨m, hm, m1, m2⟩ := log_num hqv hq0
    obtain ⟨s, hs, s1, s2⟩ := mul_between (F := F) (l := -1000) (u := 1000) hb hl (by norm_num) (by norm_num) (by push_cast; nlinarith) (by push_cast; nlinarith)
    obtain ⟨d, hd, d1, d2⟩ := sub_between (F := F) (x := 1) (l := 0) (u := 1) val_one hb (by norm_num) (by norm_num) (by push_cast; linarith) (by push_cast; linarith)
    push_cast at s1 s2 d1 d2
    obtain ⟨t, ht, t1, t2⟩ := mul_between (F := F) (l := -1000) (u := 1000) hd hm (by norm_num) (by norm_num) (by push_cast; nlinarith) (by push_cast; nlinarith)
    push_cast at t1 t2
    obtain ⟨u, hu, u1, u2⟩ := add_between (F := F) (l := -2000) (u := 2000) hs ht (by norm_num) (by norm_num) (by push_cast; linarith) (by push_cast; linarith)
    push_cast at u1 u2
    obtain ⟨r, hr, r1, r2⟩ := div_between_nat (F := F) (k := 2000) (n := y.nr) ⟨-u, neg_fin hu, by push_cast; linarith, by push_cast; linarith⟩ (by norm_num) (by norm_num) (by omega) hr
    push_cast at r1 r2
    rw [e3 i j hi hj]
    exact ⟨r, hr, abs_le.2 ⟨r1, r2⟩⟩
  obtain ⟨r, hr, _⟩ := total_bound (elems J) 2000 hel (by rw [length_elems, e1, e2]; exact hsz) (by
    rw [length_elems, e1, e2]
    have h1 : ((y.nr * y.nc : ℕ) : ℝ) ≤ 2 ^ 50 := by exact_mod_cast hsz.le
    have h2 := sumMax_big
    have h3 : (2 : ℝ) ^ 50 * 2000 ≤ 2 ^ 200 := by norm_num
    have h4 : ((y.nr * y.nc : ℕ) : ℝ) * 2000 ≤ 2 ^ 50 * 2000 := by linarith
    exact h4.trans (h3.trans h2))
  exact ⟨r, hr⟩

/-! ## Kullback-Leibler -/

/-- The Kullback-Leibler cost is NaN as soon as a label contains a 0, for every prediction: in particular for all one-hot labels of two or more classes. -/
theorem C75_kullback {n : Net F} {pred y : Mat F} {c : F} (hc : n.output.cost = KullbackLeibler.cost) (h : n.computecost pred y = .ok c) {i j : Nat} (hi : i < y.nr) (hj : j < y.nc)
    (hy : val (y.f i j) = fin 0) : NaN c := by
  obtain ⟨J, h1, rfl⟩ := computecost_spec h
  rw [hc] at h1
  obtain ⟨q, h2, h1⟩ := bind_eq_ok h1
  obtain ⟨t, h3, h1⟩ := bind_eq_ok h1
  cases h1
  obtain ⟨a1, a2, a3, a4, a5⟩ := zip_spec h2
  obtain ⟨b1, b2, b3, b4, b5⟩ := zip_spec h3
  refine sumall_nan (i := i) (j := j) (by simp only [divN, Mat.map_nr]; omega) (by simp only [divN, Mat.map_nc]; omega) (divN_nan (by omega) (by omega) ?_)
  rw [b5 i j hi hj, logorithm, Mat.map_f' (by omega) (by omega), a5 i j hi hj]
  have hq : val (y.f i j / pred.f i j) = fin 0 ∨ val (y.f i j / pred.f i j) = nan := by
    have hd := val_div (y.f i j) (pred.f i j)
    rw [hy] at hd
    cases hp : val (pred.f i j) with
    | nan => rw [hp] at hd; exact .inr hd
    | pinf => rw [hp] at hd; exact .inl hd
    | ninf => rw [hp] at hd; exact .inl hd
    | fin b =>
      rw [hp] at hd
      by_cases hb : b = 0
      · simp only [IsDiv] at hd
        rw [if_pos hb, if_pos trivial] at hd
        exact .inr hd
      · simp only [IsDiv] at hd
        rw [if_neg hb, zero_div, rnd_0] at hd
        exact .inl hd
  rcases hq with hq | hq
  · exact zero_mul_ninf hy (log_zero hq)
  · exact mul_nan (.inr (log_nan hq))

/-! ## Softmax -/

theorem softmax_elem {y h J : Mat F} (hJ : Softmax.cost y h = .ok J) : y.nr = h.nr ∧ y.nc = h.nc ∧ J.nr = y.nr ∧ J.nc = y.nc ∧ ∀ i j, i < y.nr → j < y.nc →
    J.f i j = -(y.f i j * log (exp (h.f i j) * (1 / total ((List.range h.nc).map fun k => exp (h.f i k))))) / lit y.nr := by
  obtain ⟨P, h1, hJ⟩ := bind_eq_ok hJ
  obtain ⟨t, h2, hJ⟩ := bind_eq_ok hJ
  cases hJ
  obtain ⟨p1, p2, p3⟩ := prob_spec h1
  obtain ⟨a1, a2, a3, a4, a5⟩ := zip_spec h2
  simp only [logorithm, Mat.map_nr, Mat.map_nc] at a1 a2 a5
  refine ⟨by omega, by omega, by simp only [divN, Mat.map_nr]; omega, by simp only [divN, Mat.map_nc]; omega, fun i j hi hj => ?_⟩
  rw [divN, Mat.map_f' (by simp only [Mat.map_nr]; omega) (by simp only [Mat.map_nc]; omega), Mat.map_f' (by omega) (by omega), a5 i j hi hj, Mat.map_f' (by omega) (by omega), p3 i j (by omega) (by omega)]

/-- The softmax cost is NaN as soon as one output is 710 or more, or -746 or less for a class whose label is 0 (a confidently and rightly rejected class). -/
theorem C75_softmax {n : Net F} {pred y : Mat F} {c : F} (hc : n.output.cost = Softmax.cost) (h : n.computecost pred y = .ok c) {i j : Nat} (hi : i < y.nr) (hj : j < y.nc)
    (hij : Le (fin 710) (val (pred.f i j)) ∨ (val (y.f i j) = fin 0 ∧ Le (val (pred.f i j)) (fin (-746)))) : NaN c := by
  obtain ⟨J, h1, rfl⟩ := computecost_spec h
  rw [hc] at h1
  obtain ⟨e1, e2, e3, e4, e5⟩ := softmax_elem h1
  refine sumall_nan (i := i) (j := j) (by omega) (by omega) ?_
  rw [e5 i j hi hj]
  refine div_nan (.inl (neg_nan ?_))
  rcases hij with hb | ⟨hy, hs⟩
  · exact mul_nan (.inr (log_nan (prob_overflow (by omega) hb)))
  · have he := exp_under hs
    generalize 1 / total ((List.range pred.nc).map fun k => exp (pred.f i k)) = t
    have hP : val (exp (pred.f i j) * t) = fin 0 ∨ val (exp (pred.f i j) * t) = nan := by
      rw [val_mul, he]
      cases val t with
      | nan => exact .inr rfl
      | pinf => exact .inr (by simp [FV.mul, infSign])
      | ninf => exact .inr (by simp [FV.mul, infSign])
      | fin b =>
        left
        show Ieee.rnd F (0 * b) = fin 0
        rw [zero_mul, rnd_0]
    rcases hP with hP | hP
    · exact zero_mul_ninf hy (log_zero hP)
    · exact mul_nan (.inr (log_nan hP))

/-! ## Quadratic -/

/-- The quadratic cost of numbers is never NaN and never negative (it may be infinite). -/
theorem C75_quadratic {n : Net F} {pred y : Mat F} {c : F} (hc : n.output.cost = Quadratic.cost) (h : n.computecost pred y = .ok c) (hr : y.nr ≤ 2 ^ 53)
    (hy : ∀ i j, i < y.nr → j < y.nc → Number (y.f i j)) (hp : ∀ i j, i < y.nr → j < y.nc → Number (pred.f i j)) : Le (fin 0) (val c) := by
  obtain ⟨J, h1, rfl⟩ := computecost_spec h
  rw [hc] at h1
  obtain ⟨d, h2, h1⟩ := bind_eq_ok h1
  obtain ⟨s, h3, h1⟩ := bind_eq_ok h1
  cases h1
  obtain ⟨a1, a2, a3, a4, a5⟩ := zip_spec h2
  obtain ⟨b1, b2, b3, b4, b5⟩ := zip_spec h3
  refine (total_nonneg _ fun x hx => ?_).1
  obtain ⟨i, j, hi, hj, rfl⟩ := mem_elems.1 hx
  simp only [divN, Mat.map_nr, Mat.map_nc] at hi hj
  rw [divN, divN, Mat.map_f' (by simpa using hi) (by simpa using hj), Mat.map_f' hi hj, b5 i j (by omega) (by omega), a5 i j (by omega) (by omega)]
  obtain ⟨p, hpv⟩ := hp i j (by omega) (by omega)
  obtain ⟨q, hqv⟩ := hy i j (by omega) (by omega)
  have div_nonneg' : ∀ {u : F} {k : ℕ}, 0 < k → k ≤ 2 ^ 53 → Le (fin 0) (val u) → Le (fin 0) (val (u / lit k)) := by
    intro u k hk hk2 hu
    have hk1 : (0 : ℝ) < k := by exact_mod_cast hk
    have hd := val_div u (lit k : F)
    rw [lit_nat hk2] at hd
    cases hu' : val u with
    | nan => rw [hu'] at hu; exact (Le_nan hu).elim
    | ninf => rw [hu'] at hu; exact hu.elim
    | pinf =>
      rw [hu'] at hd
      simp only [IsDiv] at hd
      rw [if_neg hk1.ne', infSign, if_pos hk1] at hd
      rw [hd]
      trivial
    | fin b =>
      rw [hu'] at hd hu
      simp only [IsDiv] at hd
      rw [if_neg hk1.ne'] at hd
      rw [hd, ← rnd_0 (F := F)]
      exact rnd_le (div_nonneg hu hk1.le)
  have hsq : Le (fin 0) (val ((y.f i j - pred.f i j) * (y.f i j - pred.f i j))) := by
    have hd : val (y.f i j - pred.f i j) = Ieee.rnd F (q + -p) := by rw [val_sub, hqv, hpv]; rfl
    cases hv : Ieee.rnd F (q + -p) with
    | nan => exact absurd hv (rnd_notNan _)
    | pinf => rw [val_mul, hd, hv]; trivial
    | ninf => rw [val_mul, hd, hv]; trivial
    | fin e =>
      rw [hv] at hd
      rcases square_range hd with h | ⟨r, hr, h⟩ <;> rw [h]
      · trivial
      · exact hr
  have := div_nonneg' (k := 2) (by norm_num) (by norm_num) hsq
  exact div_nonneg' (by omega) hr (by simpa using this)

end
/-! ## Concrete cases -/
noncomputable section

/-- A network whose output has the given cost. -/
def Witness.withCost (cost : MatFunc Witness.T) : Net Witness.T := ⟨[], { Witness.layer (Witness.full 2 1 1) with cost := cost, costd := Quadratic.costd, y := Mat.empty }⟩

/-- One sample, one unit, label 1, prediction 1. -/
example : ∃ c, (Witness.withCost CrossEntropy.cost).computecost (Witness.full 1 1 1) (Witness.full 1 1 1) = .ok c ∧ NaN c :=
  ⟨_, rfl, C75_crossentropy (n := Witness.withCost CrossEntropy.cost) (pred := Witness.full 1 1 1) (y := Witness.full 1 1 1) rfl rfl (i := 0) (j := 0) (by show 0 < 1; omega) (by show 0 < 1; omega) (.inl ⟨Witness.rnd_one, Witness.rnd_one⟩)⟩

/-- Label 0, prediction 1: Kullback-Leibler. -/
example : ∃ c, (Witness.withCost KullbackLeibler.cost).computecost (Witness.full 1 1 1) (Witness.full 1 1 0) = .ok c ∧ NaN c :=
  ⟨_, rfl, C75_kullback (n := Witness.withCost KullbackLeibler.cost) (pred := Witness.full 1 1 1) (y := Witness.full 1 1 0) rfl rfl (i := 0) (j := 0) (by show 0 < 1; omega) (by show 0 < 1; omega) Witness.rnd_zero⟩

/-- Label 1, prediction 1/2: the cross entropy is a number. -/
example : ∃ c, (Witness.withCost CrossEntropy.cost).computecost (Witness.full 1 1 (Witness.mk (fin (1 / 2)))) (Witness.full 1 1 1) = .ok c ∧ Number c := by
  have hov : (1 : ℝ) < overflow := by
    have := one_le_large
    rw [overflow_eq]
    linarith
  have hh : Witness.rnd (1 / 2) = fin (1 / 2) := Witness.rnd_fix (by rw [abs_of_pos (by norm_num)]; linarith) (.inl (by norm_num)) (.inl (by norm_num))
  refine C75_crossentropy_safe rfl rfl rfl (by show 1 * 1 < _; norm_num) (by show 1 ≤ _; norm_num) (fun i j hi hj => ?_) (fun i j hi hj => ?_)
  · rw [Witness.full, Mat.of_f' (by exact hi) (by exact hj)]
    exact ⟨1, Witness.rnd_one, by norm_num, le_refl _⟩
  · rw [Witness.full, Mat.of_f' (by exact hi) (by exact hj)]
    refine ⟨⟨1 / 2, by norm_num, hh⟩, 1 / 2, by norm_num, ?_⟩
    rw [val_sub, val_one, show val (Witness.mk (fin (1 / 2))) = fin (1 / 2) from hh]
    show Witness.rnd (1 + -(1 / 2)) = _
    rw [show (1 : ℝ) + -(1 / 2) = 1 / 2 by norm_num, hh]

end
end Nnet.NN.Flt
