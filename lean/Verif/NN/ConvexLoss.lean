import Verif.NN.Convex
import Verif.NN.PropsCost
/-!
# The costs of the library are convex and smooth functions of the last layer's pre-activations

Used for C88.
-/
namespace Nnet.NN
open Finset

/-! ### log-sum-exp -/

theorem lse_lower {n : Nat} {P d : Nat → ℝ} (hP : ∀ j < n, 0 ≤ P j) (h1 : ∑ j ∈ range n, P j = 1) :
    ∑ j ∈ range n, P j * d j ≤ Real.log (∑ j ∈ range n, P j * Real.exp (d j)) := by
  have := convexOn_exp.map_sum_le (t := range n) (w := P) (p := d) (fun j hj => hP j (mem_range.1 hj)) h1 (fun _ _ => Set.mem_univ _)
  simp only [smul_eq_mul] at this
  rw [Real.le_log_iff_exp_le (lt_of_lt_of_le (Real.exp_pos _) this)]
  exact this

theorem lse_upper_centred {n : Nat} {P u : Nat → ℝ} {K : ℝ} (hP : ∀ j < n, 0 ≤ P j) (h1 : ∑ j ∈ range n, P j = 1) (hu : ∀ j < n, u j ^ 2 ≤ K) :
    Real.log (∑ j ∈ range n, P j * Real.exp (u j)) ≤ ∑ j ∈ range n, P j * u j + K / 2 := by
  set S0 : ℝ → ℝ := fun t => ∑ j ∈ range n, P j * Real.exp (t * u j) with hS0
  set S1 : ℝ → ℝ := fun t => ∑ j ∈ range n, P j * (Real.exp (t * u j) * u j) with hS1
  set S2 : ℝ → ℝ := fun t => ∑ j ∈ range n, P j * (Real.exp (t * u j) * u j * u j) with hS2
  have pos : ∀ t, 0 < S0 t := by
    intro t
    have hne : ∃ j ∈ range n, 0 < P j := by
      by_contra hcon
      push Not at hcon
      have : ∑ j ∈ range n, P j ≤ 0 := sum_nonpos hcon
      linarith
    obtain ⟨j, hj, hp⟩ := hne
    exact sum_pos' (fun k hk => mul_nonneg (hP k (mem_range.1 hk)) (Real.exp_pos _).le) ⟨j, hj, mul_pos hp (Real.exp_pos _)⟩
  have dexp : ∀ (j : Nat) (t : ℝ), HasDerivAt (fun t => Real.exp (t * u j)) (Real.exp (t * u j) * u j) t := fun j t => by
    have := ((hasDerivAt_id t).mul_const (u j)).exp
    simpa using this
  have d0 : ∀ t, HasDerivAt S0 (S1 t) t := fun t => by
    have := HasDerivAt.fun_sum (u := range n) (A := fun j t => P j * Real.exp (t * u j)) (A' := fun j => P j * (Real.exp (t * u j) * u j)) (x := t)
      (fun j _ => (dexp j t).const_mul (P j))
    exact this
  have d1 : ∀ t, HasDerivAt S1 (S2 t) t := fun t => by
    have := HasDerivAt.fun_sum (u := range n) (A := fun j t => P j * (Real.exp (t * u j) * u j)) (A' := fun j => P j * (Real.exp (t * u j) * u j * u j)) (x := t)
      (fun j _ => ((dexp j t).mul_const (u j)).const_mul (P j))
    exact this
  have le2 : ∀ t, S2 t ≤ K * S0 t := fun t => by
    rw [hS2, hS0]
    simp only
    rw [mul_sum]
    refine sum_le_sum fun j hj => ?_
    have := hu j (mem_range.1 hj)
    nlinarith [mul_nonneg (hP j (mem_range.1 hj)) (Real.exp_pos (t * u j)).le]
  set g : ℝ → ℝ := fun t => S1 0 / S0 0 + K * t - S1 t / S0 t with hg
  have dg : ∀ t, HasDerivAt g (K - (S2 t * S0 t - S1 t * S1 t) / S0 t ^ 2) t := fun t => by
    have a := ((d1 t).div (d0 t) (pos t).ne')
    have b : HasDerivAt (fun t => S1 0 / S0 0 + K * t) (K * 1) t := ((hasDerivAt_id t).const_mul K).const_add _
    rw [mul_one] at b
    exact b.sub a
  have mg : Monotone g := monotone_of_deriv_nonneg (fun t => (dg t).differentiableAt) fun t => by
    rw [(dg t).deriv, sub_nonneg, div_le_iff₀ (pow_pos (pos t) 2)]
    nlinarith [le2 t, pos t, sq_nonneg (S1 t)]
  have g0 : g 0 = 0 := by rw [hg]; ring
  set h : ℝ → ℝ := fun t => S1 0 / S0 0 * t + K / 2 * t ^ 2 - Real.log (S0 t) with hh
  have dh : ∀ t, HasDerivAt h (g t) t := fun t => by
    have a := (d0 t).log (pos t).ne'
    have b : HasDerivAt (fun t : ℝ => S1 0 / S0 0 * t) (S1 0 / S0 0 * 1) t := (hasDerivAt_id t).const_mul _
    have c : HasDerivAt (fun t : ℝ => K / 2 * t ^ 2) (K / 2 * (2 * t)) t := by simpa using (hasDerivAt_pow 2 t).const_mul (K / 2)
    have := (b.add c).sub a
    have e : g t = S1 0 / S0 0 * 1 + K / 2 * (2 * t) - S1 t / S0 t := by
      show S1 0 / S0 0 + K * t - S1 t / S0 t = _
      ring
    rw [e]
    exact this
  have mh : MonotoneOn h (Set.Ici 0) := by
    refine monotoneOn_of_deriv_nonneg (convex_Ici 0) (fun t _ => (dh t).continuousAt.continuousWithinAt) (fun t _ => (dh t).differentiableAt.differentiableWithinAt) fun t ht => ?_
    rw [(dh t).deriv, ← g0]
    rw [interior_Ici] at ht
    exact mg (le_of_lt ht)
  have fin := mh (Set.mem_Ici.2 le_rfl) (Set.mem_Ici.2 zero_le_one) zero_le_one
  have e0 : S0 0 = 1 := by rw [hS0]; simp [h1]
  have e1 : S1 0 = ∑ j ∈ range n, P j * u j := by rw [hS1]; simp
  have e2 : S0 1 = ∑ j ∈ range n, P j * Real.exp (u j) := by rw [hS0]; simp
  have h00 : h 0 = 0 := by rw [hh]; simp [e0]
  have h01 : h 1 = ∑ j ∈ range n, P j * u j + K / 2 - Real.log (∑ j ∈ range n, P j * Real.exp (u j)) := by
    show S1 0 / S0 0 * 1 + K / 2 * 1 ^ 2 - Real.log (S0 1) = _
    rw [e0, e1, e2]; ring
  rw [h00, h01] at fin
  linarith

theorem lse_upper {n : Nat} {P d : Nat → ℝ} {K : ℝ} (c : ℝ) (hP : ∀ j < n, 0 ≤ P j) (h1 : ∑ j ∈ range n, P j = 1) (hd : ∀ j < n, (d j - c) ^ 2 ≤ K) :
    Real.log (∑ j ∈ range n, P j * Real.exp (d j)) ≤ ∑ j ∈ range n, P j * d j + K / 2 := by
  have := lse_upper_centred (u := fun j => d j - c) hP h1 hd
  have e1 : ∑ j ∈ range n, P j * (d j - c) = ∑ j ∈ range n, P j * d j - c := by
    simp only [mul_sub]
    rw [sum_sub_distrib, ← sum_mul, h1, one_mul]
  have e2 : ∑ j ∈ range n, P j * Real.exp (d j) = Real.exp c * ∑ j ∈ range n, P j * Real.exp (d j - c) := by
    rw [mul_sum]
    refine sum_congr rfl fun j _ => ?_
    rw [Real.exp_sub]
    field_simp
  have pos : 0 < ∑ j ∈ range n, P j * Real.exp (d j - c) := by
    have := lse_lower (d := fun j => d j - c) hP h1
    by_contra hcon
    have h3 : ∑ j ∈ range n, P j * Real.exp (d j - c) = 0 := le_antisymm (not_lt.1 hcon) (sum_nonneg fun k hk => mul_nonneg (hP k (mem_range.1 hk)) (Real.exp_pos _).le)
    have h4 := (sum_eq_zero_iff_of_nonneg fun k hk => mul_nonneg (hP k (mem_range.1 hk)) (Real.exp_pos _).le).1 h3
    have : ∑ j ∈ range n, P j = 0 := sum_eq_zero fun j hj => by
      rcases mul_eq_zero.1 (h4 j hj) with h | h
      · exact h
      · exact absurd h (Real.exp_pos _).ne'
    linarith
  rw [e2, Real.log_mul (Real.exp_pos _).ne' pos.ne', Real.log_exp]
  linarith

/-- Some centre is within half the squared length of all entries. -/
theorem centre (n : Nat) (d : Nat → ℝ) : ∃ c, ∀ j < n, (d j - c) ^ 2 ≤ (∑ j ∈ range n, d j ^ 2) / 2 := by
  rcases Nat.eq_zero_or_pos n with rfl | hn
  · exact ⟨0, fun j hj => absurd hj (Nat.not_lt_zero j)⟩
  obtain ⟨a, ha, hmax⟩ := exists_max_image (range n) d ⟨0, mem_range.2 hn⟩
  obtain ⟨b, hb, hmin⟩ := exists_min_image (range n) d ⟨0, mem_range.2 hn⟩
  refine ⟨(d a + d b) / 2, fun j hj => ?_⟩
  have h1 := hmax j (mem_range.2 hj)
  have h2 := hmin j (mem_range.2 hj)
  by_cases hab : a = b
  · subst hab
    have : d j = d a := le_antisymm h1 h2
    rw [this]
    have : 0 ≤ ∑ j ∈ range n, d j ^ 2 := sum_nonneg fun _ _ => sq_nonneg _
    nlinarith
  · have h3 : d a ^ 2 + d b ^ 2 ≤ ∑ j ∈ range n, d j ^ 2 := by
      rw [← sum_pair (f := fun j => d j ^ 2) hab]
      exact sum_le_sum_of_subset_of_nonneg (by intro k hk; rcases mem_insert.1 hk with rfl | hk; exacts [ha, mem_singleton.1 hk ▸ hb]) fun _ _ _ => sq_nonneg _
    have h4 : |d j - (d a + d b) / 2| ≤ (d a - d b) / 2 := abs_le.2 ⟨by linarith, by linarith⟩
    have h5 : (d j - (d a + d b) / 2) ^ 2 ≤ ((d a - d b) / 2) ^ 2 := by
      rw [← sq_abs (d j - _)]
      exact pow_le_pow_left₀ (abs_nonneg _) h4 2
    nlinarith [sq_nonneg (d a + d b)]

/-! ### Specification of the three costs that match their deltas -/

/-- The kinds of outputs whose delta is the derivative of their cost. -/
inductive Spec.Loss where
  | quadratic
  | logistic
  | softmax

namespace Spec.Loss
noncomputable section

/-- Cost of one sample with label `y` and pre-activations `z` in `q` outputs. -/
def sample : Loss → (q : Nat) → (y z : Nat → ℝ) → ℝ
  | .quadratic, q, y, z => ∑ j ∈ range q, (z j - y j) ^ 2 / 2
  | .logistic, q, y, z => ∑ j ∈ range q, -(y j * Real.log (1 / (1 + Real.exp (-z j))) + (1 - y j) * Real.log (1 - 1 / (1 + Real.exp (-z j))))
  | .softmax, q, y, z => ∑ j ∈ range q, -(y j * Real.log (Real.exp (z j) / ∑ k ∈ range q, Real.exp (z k)))

/-- Bound of the second derivative of `sample`. -/
def curvature : Loss → ℝ
  | .quadratic => 1
  | .logistic => 1 / 4
  | .softmax => 1 / 2

/-- The labels the cost is meant for. -/
def Labels : Loss → (q : Nat) → (y : Nat → ℝ) → Prop
  | .quadratic, _, _ => True
  | .logistic, q, y => ∀ j < q, 0 ≤ y j ∧ y j ≤ 1
  | .softmax, q, y => (∀ j < q, 0 ≤ y j) ∧ ∑ j ∈ range q, y j = 1

/-- The activation, cost and delta of the library. -/
def act : Loss → ActFunc ℝ
  | .quadratic => Act.identity
  | .logistic => Act.sigmoid
  | .softmax => Act.identity
/-- See `act`. -/
def cost : Loss → MatFunc
  | .quadratic => Quadratic.cost
  | .logistic => CrossEntropy.cost
  | .softmax => Softmax.cost
/-- See `act`. -/
def costd : Loss → MatFuncD
  | .quadratic => Quadratic.costd
  | .logistic => CrossEntropy.costd
  | .softmax => Softmax.costd

/-- The derivative of `sample` for the labels it is meant for. -/
def deriv : Loss → (q : Nat) → (y z : Nat → ℝ) → Nat → ℝ
  | .quadratic, _, y, z, j => z j - y j
  | .logistic, _, y, z, j => 1 / (1 + Real.exp (-z j)) - y j
  | .softmax, q, y, z, j => Real.exp (z j) / (∑ k ∈ range q, Real.exp (z k)) - y j

end
end Spec.Loss

theorem log_sigmoid (z : ℝ) : Real.log (1 / (1 + Real.exp (-z))) = z - Real.log (1 + Real.exp z) := by
  have h1 : 1 / (1 + Real.exp (-z)) = Real.exp z / (1 + Real.exp z) := by
    rw [Real.exp_neg]
    have := Real.exp_pos z
    field_simp
    ring
  rw [h1, Real.log_div (Real.exp_pos _).ne' (by have := Real.exp_pos z; positivity), Real.log_exp]

theorem log_one_sub_sigmoid (z : ℝ) : Real.log (1 - 1 / (1 + Real.exp (-z))) = -Real.log (1 + Real.exp z) := by
  have h1 : 1 - 1 / (1 + Real.exp (-z)) = 1 / (1 + Real.exp z) := by
    rw [Real.exp_neg]
    have := Real.exp_pos z
    field_simp
    ring
  rw [h1, Real.log_div one_ne_zero (by have := Real.exp_pos z; positivity), Real.log_one, zero_sub]

theorem logistic_term (y z : ℝ) : -(y * Real.log (1 / (1 + Real.exp (-z))) + (1 - y) * Real.log (1 - 1 / (1 + Real.exp (-z)))) = Real.log (1 + Real.exp z) - y * z := by
  rw [log_sigmoid, log_one_sub_sigmoid]; ring

theorem softplus_bounds (z v : ℝ) :
    Real.log (1 + Real.exp z) + 1 / (1 + Real.exp (-z)) * (v - z) ≤ Real.log (1 + Real.exp v) ∧
    Real.log (1 + Real.exp v) ≤ Real.log (1 + Real.exp z) + 1 / (1 + Real.exp (-z)) * (v - z) + (v - z) ^ 2 / 8 := by
  set s := 1 / (1 + Real.exp (-z)) with hs
  have hz := Real.exp_pos z
  have hv := Real.exp_pos v
  have hs1 : s = Real.exp z / (1 + Real.exp z) := by
    rw [hs, Real.exp_neg]
    field_simp
    ring
  have s0 : 0 ≤ s := by rw [hs1]; positivity
  have s1 : s ≤ 1 := by rw [hs1, div_le_one (by positivity)]; linarith
  have e : Real.log (1 + Real.exp v) = Real.log (1 + Real.exp z) + Real.log (∑ j ∈ range 2, (if j = 0 then 1 - s else s) * Real.exp (if j = 0 then 0 else v - z)) := by
    rw [sum_range_succ, sum_range_one]
    simp only [if_true, one_ne_zero, if_false, Real.exp_zero, mul_one]
    have : 1 - s + s * Real.exp (v - z) = (1 + Real.exp v) / (1 + Real.exp z) := by
      rw [hs1, Real.exp_sub]
      field_simp
      ring
    rw [this, Real.log_div (by positivity) (by positivity)]
    ring
  have hP : ∀ j < 2, 0 ≤ (if j = 0 then 1 - s else s) := fun j _ => by split <;> linarith
  have h1 : ∑ j ∈ range 2, (if j = 0 then 1 - s else s) = 1 := by rw [sum_range_succ, sum_range_one]; simp
  have h2 : ∑ j ∈ range 2, (if j = 0 then 1 - s else s) * (if j = 0 then 0 else v - z) = s * (v - z) := by rw [sum_range_succ, sum_range_one]; simp
  have lo := lse_lower (d := fun j => if j = 0 then 0 else v - z) hP h1
  have up := lse_upper (d := fun j => if j = 0 then 0 else v - z) (K := (v - z) ^ 2 / 4) ((v - z) / 2) hP h1 (fun j _ => by
    show ((if j = 0 then 0 else v - z) - (v - z) / 2) ^ 2 ≤ _
    split
    · exact le_of_eq (by ring)
    · exact le_of_eq (by ring))
  rw [h2] at lo up
  rw [e]
  constructor <;> linarith

theorem softmax_sample {q : Nat} (hq : 0 < q) {y : Nat → ℝ} (hy : ∑ j ∈ range q, y j = 1) (z : Nat → ℝ) :
    Spec.Loss.softmax.sample q y z = Real.log (∑ k ∈ range q, Real.exp (z k)) - ∑ j ∈ range q, y j * z j := by
  show ∑ j ∈ range q, -(y j * Real.log (Real.exp (z j) / ∑ k ∈ range q, Real.exp (z k))) = _
  have hS := sumExp_pos hq z
  have : ∀ j ∈ range q, -(y j * Real.log (Real.exp (z j) / ∑ k ∈ range q, Real.exp (z k))) = y j * Real.log (∑ k ∈ range q, Real.exp (z k)) - y j * z j := fun j _ => by
    rw [Real.log_div (Real.exp_pos _).ne' hS.ne', Real.log_exp]; ring
  rw [sum_congr rfl this, sum_sub_distrib, ← sum_mul, hy, one_mul]

theorem lse_step {q : Nat} (hq : 0 < q) (z v : Nat → ℝ) :
    Real.log (∑ k ∈ range q, Real.exp (v k)) = Real.log (∑ k ∈ range q, Real.exp (z k)) +
      Real.log (∑ j ∈ range q, Real.exp (z j) / (∑ k ∈ range q, Real.exp (z k)) * Real.exp (v j - z j)) := by
  have hz := sumExp_pos hq z
  have hv := sumExp_pos hq v
  have : ∑ j ∈ range q, Real.exp (z j) / (∑ k ∈ range q, Real.exp (z k)) * Real.exp (v j - z j) = (∑ k ∈ range q, Real.exp (v k)) / ∑ k ∈ range q, Real.exp (z k) := by
    rw [Finset.sum_div]
    refine sum_congr rfl fun j _ => ?_
    rw [Real.exp_sub]
    have := Real.exp_pos (z j)
    field_simp
  rw [this, Real.log_div hv.ne' hz.ne']
  ring

/-- The three costs are convex, with curvature at most `curvature`. -/
theorem loss_good (l : Spec.Loss) {m q : Nat} (hq : 0 < q) (y : Nat → Nat → ℝ) (hy : ∀ i < m, l.Labels q (y i)) :
    GD.Good m q l.curvature (fun i => l.sample q (y i)) (fun i => l.deriv q (y i)) := by
  cases l with
  | quadratic =>
    constructor
    · intro i _ z v
      show ∑ j ∈ range q, _ + _ ≤ ∑ j ∈ range q, _
      rw [← sum_add_distrib]
      refine sum_le_sum fun j _ => ?_
      show (z j - y i j) ^ 2 / 2 + (z j - y i j) * (v j - z j) ≤ (v j - y i j) ^ 2 / 2
      nlinarith [sq_nonneg (v j - z j)]
    · intro i _ z v
      show ∑ j ∈ range q, _ ≤ ∑ j ∈ range q, _ + _ + 1 / 2 * _
      rw [mul_sum, ← sum_add_distrib, ← sum_add_distrib]
      refine sum_le_sum fun j _ => ?_
      show (v j - y i j) ^ 2 / 2 ≤ (z j - y i j) ^ 2 / 2 + (z j - y i j) * (v j - z j) + 1 / 2 * (v j - z j) ^ 2
      nlinarith
  | logistic =>
    have e : ∀ i z, Spec.Loss.logistic.sample q (y i) z = ∑ j ∈ range q, (Real.log (1 + Real.exp (z j)) - y i j * z j) := fun i z =>
      sum_congr rfl fun j _ => logistic_term _ _
    constructor
    · intro i _ z v
      simp only [e]
      rw [← sum_add_distrib]
      refine sum_le_sum fun j _ => ?_
      show _ - _ + (1 / (1 + Real.exp (-z j)) - y i j) * (v j - z j) ≤ _
      have := (softplus_bounds (z j) (v j)).1
      nlinarith
    · intro i _ z v
      simp only [e]
      rw [mul_sum, ← sum_add_distrib, ← sum_add_distrib]
      refine sum_le_sum fun j _ => ?_
      show _ ≤ _ - _ + (1 / (1 + Real.exp (-z j)) - y i j) * (v j - z j) + 1 / 4 / 2 * _
      have := (softplus_bounds (z j) (v j)).2
      nlinarith
  | softmax =>
    have hP : ∀ z : Nat → ℝ, ∀ j < q, 0 ≤ Real.exp (z j) / ∑ k ∈ range q, Real.exp (z k) := fun z j _ => div_nonneg (Real.exp_pos _).le (sumExp_pos hq z).le
    have h1 : ∀ z : Nat → ℝ, ∑ j ∈ range q, Real.exp (z j) / ∑ k ∈ range q, Real.exp (z k) = 1 := fun z => by
      rw [← Finset.sum_div, div_self (sumExp_pos hq z).ne']
    have split : ∀ i (z v : Nat → ℝ), ∑ j ∈ range q, Spec.Loss.softmax.deriv q (y i) z j * (v j - z j) =
        ∑ j ∈ range q, Real.exp (z j) / (∑ k ∈ range q, Real.exp (z k)) * (v j - z j) - (∑ j ∈ range q, y i j * v j - ∑ j ∈ range q, y i j * z j) := fun i z v => by
      rw [← sum_sub_distrib, ← sum_sub_distrib]
      refine sum_congr rfl fun j _ => ?_
      show (Real.exp (z j) / (∑ k ∈ range q, Real.exp (z k)) - y i j) * (v j - z j) = _
      ring
    constructor
    · intro i hi z v
      simp only [softmax_sample hq (hy i hi).2]
      rw [split, lse_step hq z v]
      have := lse_lower (d := fun j => v j - z j) (hP z) (h1 z)
      linarith
    · intro i hi z v
      simp only [softmax_sample hq (hy i hi).2]
      rw [split, lse_step hq z v]
      obtain ⟨c, hc⟩ := centre q (fun j => v j - z j)
      have := lse_upper (d := fun j => v j - z j) c (hP z) (h1 z) hc
      show _ ≤ _ - _ + _ + 1 / 2 / 2 * _
      linarith

/-- The costs are never negative. -/
theorem loss_nonneg (l : Spec.Loss) {q : Nat} (hq : 0 < q) {y : Nat → ℝ} (hy : l.Labels q y) (z : Nat → ℝ) : 0 ≤ l.sample q y z := by
  cases l with
  | quadratic => exact sum_nonneg fun _ _ => by positivity
  | logistic =>
    refine sum_nonneg fun j hj => ?_
    obtain ⟨a, b⟩ := hy j (mem_range.1 hj)
    have e := Real.exp_pos (-z j)
    have h1 : Real.log (1 / (1 + Real.exp (-z j))) ≤ 0 := Real.log_nonpos (by positivity) (by rw [div_le_one (by positivity)]; linarith)
    have h3 : 1 / (1 + Real.exp (-z j)) ≤ 1 := by rw [div_le_one (by positivity)]; linarith
    have h4 : 0 < 1 / (1 + Real.exp (-z j)) := by positivity
    have h2 : Real.log (1 - 1 / (1 + Real.exp (-z j))) ≤ 0 := Real.log_nonpos (by linarith) (by linarith)
    nlinarith
  | softmax =>
    refine sum_nonneg fun j hj => ?_
    have a := hy.1 j (mem_range.1 hj)
    have hS := sumExp_pos hq z
    have h1 : Real.log (Real.exp (z j) / ∑ k ∈ range q, Real.exp (z k)) ≤ 0 := Real.log_nonpos (by positivity) (by
      rw [div_le_one hS]
      exact single_le_sum (f := fun k => Real.exp (z k)) (fun k _ => (Real.exp_pos _).le) hj)
    nlinarith

end Nnet.NN
