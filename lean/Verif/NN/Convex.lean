import Mathlib.Analysis.SpecialFunctions.Log.Basic
import Mathlib.Analysis.SpecialFunctions.ExpDeriv
import Mathlib.Analysis.SpecialFunctions.Log.Deriv
import Mathlib.Analysis.Calculus.Deriv.MeanValue
import Mathlib.Analysis.Convex.SpecificFunctions.Basic
import Mathlib.Algebra.Order.BigOperators.Ring.Finset
import Mathlib.Analysis.SpecificLimits.Basic
import Mathlib.Algebra.BigOperators.Field
/-!
# Gradient descent on sums of convex functions of linear predictions

Pure analysis, used for C88. Weights are `W k j` with `k < d` (inputs) and `j < q` (outputs); sample `i < m` has the inputs `X i k`.
-/
namespace Nnet.NN.GD
open Finset Filter Topology

/-- The predictions of the weights for sample `i`. -/
def pred (d : Nat) (X W : Nat → Nat → ℝ) (i j : Nat) : ℝ := ∑ k ∈ range d, X i k * W k j

/-- Squared length of weights. -/
def sq (d q : Nat) (W : Nat → Nat → ℝ) : ℝ := ∑ k ∈ range d, ∑ j ∈ range q, W k j ^ 2

/-- Inner product of weights. -/
def ip (d q : Nat) (W V : Nat → Nat → ℝ) : ℝ := ∑ k ∈ range d, ∑ j ∈ range q, W k j * V k j

theorem sq_nonneg' (d q : Nat) (W : Nat → Nat → ℝ) : 0 ≤ sq d q W := sum_nonneg fun _ _ => sum_nonneg fun _ _ => sq_nonneg _

/-- A sample's cost as a function of its `q` predictions, with derivative `D`: convex and with second derivative at most `L`. -/
structure Good (m q : Nat) (L : ℝ) (φ : Nat → (Nat → ℝ) → ℝ) (D : Nat → (Nat → ℝ) → Nat → ℝ) : Prop where
  convex : ∀ i < m, ∀ z v : Nat → ℝ, φ i z + ∑ j ∈ range q, D i z j * (v j - z j) ≤ φ i v
  smooth : ∀ i < m, ∀ z v : Nat → ℝ, φ i v ≤ φ i z + ∑ j ∈ range q, D i z j * (v j - z j) + L / 2 * ∑ j ∈ range q, (v j - z j) ^ 2

/-- Mean cost plus the penalty `λ/2 * |W|^2`. -/
noncomputable def obj (m d q : Nat) (X : Nat → Nat → ℝ) (φ : Nat → (Nat → ℝ) → ℝ) (lam : ℝ) (W : Nat → Nat → ℝ) : ℝ :=
  (∑ i ∈ range m, φ i (pred d X W i)) / m + lam / 2 * sq d q W

/-- The gradient of `obj`. -/
noncomputable def grad (m d : Nat) (X : Nat → Nat → ℝ) (D : Nat → (Nat → ℝ) → Nat → ℝ) (lam : ℝ) (W : Nat → Nat → ℝ) (k j : Nat) : ℝ :=
  (∑ i ∈ range m, X i k * D i (pred d X W i) j) / m + lam * W k j

variable {m d q : Nat} {L lam : ℝ} {X : Nat → Nat → ℝ} {φ : Nat → (Nat → ℝ) → ℝ} {D : Nat → (Nat → ℝ) → Nat → ℝ}

theorem pred_sub (W V : Nat → Nat → ℝ) (i j : Nat) : pred d X V i j - pred d X W i j = pred d X (fun k j => V k j - W k j) i j := by
  unfold pred
  rw [← sum_sub_distrib]
  exact sum_congr rfl fun k _ => by ring

/-- Exchange of the sums: directional derivative. -/
theorem ip_grad (W U : Nat → Nat → ℝ) :
    ip d q (grad m d X D lam W) U = (∑ i ∈ range m, ∑ j ∈ range q, D i (pred d X W i) j * pred d X U i j) / m + lam * ip d q W U := by
  have e : ∑ i ∈ range m, ∑ j ∈ range q, D i (pred d X W i) j * pred d X U i j =
      ∑ k ∈ range d, ∑ j ∈ range q, (∑ i ∈ range m, X i k * D i (pred d X W i) j) * U k j := by
    calc _ = ∑ i ∈ range m, ∑ j ∈ range q, ∑ k ∈ range d, X i k * D i (pred d X W i) j * U k j := by
          refine sum_congr rfl fun i _ => sum_congr rfl fun j _ => ?_
          unfold pred
          rw [mul_sum]
          exact sum_congr rfl fun k _ => by ring
      _ = ∑ i ∈ range m, ∑ k ∈ range d, ∑ j ∈ range q, X i k * D i (pred d X W i) j * U k j := sum_congr rfl fun i _ => sum_comm
      _ = ∑ k ∈ range d, ∑ i ∈ range m, ∑ j ∈ range q, X i k * D i (pred d X W i) j * U k j := sum_comm
      _ = _ := by
          refine sum_congr rfl fun k _ => ?_
          rw [sum_comm]
          exact sum_congr rfl fun j _ => by rw [sum_mul]
  unfold ip grad
  rw [e, mul_sum, Finset.sum_div, ← sum_add_distrib]
  refine sum_congr rfl fun k _ => ?_
  rw [Finset.sum_div, mul_sum, ← sum_add_distrib]
  exact sum_congr rfl fun j _ => by ring

theorem sq_expand (W U : Nat → Nat → ℝ) (c : ℝ) : sq d q (fun k j => W k j + c * U k j) = sq d q W + 2 * c * ip d q W U + c ^ 2 * sq d q U := by
  unfold sq ip
  rw [mul_sum, mul_sum, ← sum_add_distrib, ← sum_add_distrib]
  refine sum_congr rfl fun k _ => ?_
  rw [mul_sum, mul_sum, ← sum_add_distrib, ← sum_add_distrib]
  exact sum_congr rfl fun j _ => by ring

theorem sq_sub_expand (W V : Nat → Nat → ℝ) : sq d q V = sq d q W + 2 * ip d q W (fun k j => V k j - W k j) + sq d q (fun k j => V k j - W k j) := by
  have := sq_expand (d := d) (q := q) W (fun k j => V k j - W k j) 1
  simp only [one_mul, mul_one, one_pow] at this
  rw [← this]
  congr 1
  funext k j
  ring

theorem pred_sq_le (U : Nat → Nat → ℝ) : ∑ i ∈ range m, ∑ j ∈ range q, pred d X U i j ^ 2 ≤ (∑ i ∈ range m, ∑ k ∈ range d, X i k ^ 2) * sq d q U := by
  rw [sum_mul]
  refine sum_le_sum fun i _ => ?_
  have : sq d q U = ∑ j ∈ range q, ∑ k ∈ range d, U k j ^ 2 := sum_comm
  rw [this, mul_sum]
  exact sum_le_sum fun j _ => sum_mul_sq_le_sq_mul_sq _ _ _

/-- First-order lower bound (strongly convex if `λ > 0`). -/
theorem obj_lower (g : Good m q L φ D) (W V : Nat → Nat → ℝ) :
    obj m d q X φ lam W + ip d q (grad m d X D lam W) (fun k j => V k j - W k j) + lam / 2 * sq d q (fun k j => V k j - W k j) ≤ obj m d q X φ lam V := by
  unfold obj
  rw [ip_grad, sq_sub_expand W V]
  have : (∑ i ∈ range m, φ i (pred d X W i)) / m + (∑ i ∈ range m, ∑ j ∈ range q, D i (pred d X W i) j * pred d X (fun k j => V k j - W k j) i j) / m ≤
      (∑ i ∈ range m, φ i (pred d X V i)) / m := by
    rw [← add_div, ← sum_add_distrib]
    refine div_le_div_of_nonneg_right (sum_le_sum fun i hi => ?_) (Nat.cast_nonneg _)
    refine le_trans (le_of_eq ?_) (g.convex i (mem_range.1 hi) (pred d X W i) (pred d X V i))
    congr 1
    exact sum_congr rfl fun j _ => by rw [pred_sub]
  nlinarith

/-- Second-order upper bound. -/
theorem obj_upper (g : Good m q L φ D) (hL : 0 ≤ L) (W V : Nat → Nat → ℝ) :
    obj m d q X φ lam V ≤ obj m d q X φ lam W + ip d q (grad m d X D lam W) (fun k j => V k j - W k j) +
      (L * ((∑ i ∈ range m, ∑ k ∈ range d, X i k ^ 2) / m) + lam) / 2 * sq d q (fun k j => V k j - W k j) := by
  unfold obj
  rw [ip_grad, sq_sub_expand W V]
  have h1 : (∑ i ∈ range m, φ i (pred d X V i)) / m ≤ (∑ i ∈ range m, φ i (pred d X W i)) / m +
      (∑ i ∈ range m, ∑ j ∈ range q, D i (pred d X W i) j * pred d X (fun k j => V k j - W k j) i j) / m +
      L / 2 * ((∑ i ∈ range m, ∑ j ∈ range q, pred d X (fun k j => V k j - W k j) i j ^ 2) / m) := by
    rw [← mul_div_assoc, ← add_div, ← add_div, mul_sum, ← sum_add_distrib, ← sum_add_distrib]
    refine div_le_div_of_nonneg_right (sum_le_sum fun i hi => ?_) (Nat.cast_nonneg _)
    refine le_trans (g.smooth i (mem_range.1 hi) (pred d X W i) (pred d X V i)) (le_of_eq ?_)
    simp only [pred_sub]
  have h2 : (∑ i ∈ range m, ∑ j ∈ range q, pred d X (fun k j => V k j - W k j) i j ^ 2) / m ≤
      (∑ i ∈ range m, ∑ k ∈ range d, X i k ^ 2) * sq d q (fun k j => V k j - W k j) / m :=
    div_le_div_of_nonneg_right (pred_sq_le _) (Nat.cast_nonneg _)
  have h3 : (∑ i ∈ range m, ∑ k ∈ range d, X i k ^ 2) * sq d q (fun k j => V k j - W k j) / m =
      (∑ i ∈ range m, ∑ k ∈ range d, X i k ^ 2) / m * sq d q (fun k j => V k j - W k j) := by ring
  rw [h3] at h2
  have h4 := mul_le_mul_of_nonneg_left h2 (show 0 ≤ L / 2 by linarith)
  nlinarith

/-- One gradient step of size `η`. -/
def IsStep (m d q : Nat) (X : Nat → Nat → ℝ) (D : Nat → (Nat → ℝ) → Nat → ℝ) (lam η : ℝ) (W W' : Nat → Nat → ℝ) : Prop :=
  ∀ k < d, ∀ j < q, W' k j = W k j - η * grad m d X D lam W k j

theorem step_ip {η : ℝ} {W W' : Nat → Nat → ℝ} (h : IsStep m d q X D lam η W W') (G : Nat → Nat → ℝ) :
    ip d q G (fun k j => W' k j - W k j) = -η * ip d q G (grad m d X D lam W) := by
  unfold ip
  rw [mul_sum]
  refine sum_congr rfl fun k hk => ?_
  rw [mul_sum]
  exact sum_congr rfl fun j hj => by simp only [h k (mem_range.1 hk) j (mem_range.1 hj)]; ring

theorem step_sq {η : ℝ} {W W' : Nat → Nat → ℝ} (h : IsStep m d q X D lam η W W') :
    sq d q (fun k j => W' k j - W k j) = η ^ 2 * sq d q (grad m d X D lam W) := by
  unfold sq
  rw [mul_sum]
  refine sum_congr rfl fun k hk => ?_
  rw [mul_sum]
  exact sum_congr rfl fun j hj => by simp only [h k (mem_range.1 hk) j (mem_range.1 hj)]; ring

theorem ip_self (G : Nat → Nat → ℝ) : ip d q G G = sq d q G := by
  unfold ip sq
  exact sum_congr rfl fun k _ => sum_congr rfl fun j _ => by ring

/-- A step does not raise the objective. -/
theorem step_descends (g : Good m q L φ D) (hL : 0 ≤ L) {η : ℝ} (h0 : 0 ≤ η) (h2 : η * (L * ((∑ i ∈ range m, ∑ k ∈ range d, X i k ^ 2) / m) + lam) ≤ 2)
    {W W' : Nat → Nat → ℝ} (h : IsStep m d q X D lam η W W') : obj m d q X φ lam W' ≤ obj m d q X φ lam W := by
  have := obj_upper (d := d) (X := X) (lam := lam) g hL W W'
  rw [step_ip h, step_sq h, ip_self] at this
  have hs := sq_nonneg' d q (grad m d X D lam W)
  nlinarith [mul_nonneg h0 hs, mul_le_mul_of_nonneg_right h2 (mul_nonneg h0 hs)]

/-- A step approaches every better point. -/
theorem step_approaches (g : Good m q L φ D) (hL : 0 ≤ L) {η : ℝ} (h0 : 0 ≤ η) (h1 : η * (L * ((∑ i ∈ range m, ∑ k ∈ range d, X i k ^ 2) / m) + lam) ≤ 1)
    {W W' : Nat → Nat → ℝ} (h : IsStep m d q X D lam η W W') (V : Nat → Nat → ℝ) :
    sq d q (fun k j => W' k j - V k j) + 2 * η * obj m d q X φ lam W' ≤ (1 - η * lam) * sq d q (fun k j => W k j - V k j) + 2 * η * obj m d q X φ lam V := by
  have u := obj_upper (d := d) (X := X) (lam := lam) g hL W W'
  have l := obj_lower (d := d) (X := X) (lam := lam) g W V
  rw [step_ip h, step_sq h, ip_self] at u
  have hs := sq_nonneg' d q (grad m d X D lam W)
  have e1 : sq d q (fun k j => W' k j - V k j) = sq d q (fun k j => W k j - V k j) - 2 * η * ip d q (fun k j => W k j - V k j) (grad m d X D lam W) + η ^ 2 * sq d q (grad m d X D lam W) := by
    have := sq_expand (d := d) (q := q) (fun k j => W k j - V k j) (grad m d X D lam W) (-η)
    have e : sq d q (fun k j => W' k j - V k j) = sq d q (fun k j => (W k j - V k j) + -η * grad m d X D lam W k j) := by
      unfold sq
      refine sum_congr rfl fun k hk => sum_congr rfl fun j hj => ?_
      simp only [h k (mem_range.1 hk) j (mem_range.1 hj)]; ring
    rw [e, this]; ring
  have e2 : ip d q (grad m d X D lam W) (fun k j => V k j - W k j) = -ip d q (fun k j => W k j - V k j) (grad m d X D lam W) := by
    unfold ip
    rw [← sum_neg_distrib]
    refine sum_congr rfl fun k _ => ?_
    rw [← sum_neg_distrib]
    exact sum_congr rfl fun j _ => by ring
  have e3 : sq d q (fun k j => V k j - W k j) = sq d q (fun k j => W k j - V k j) := by
    unfold sq
    exact sum_congr rfl fun k _ => sum_congr rfl fun j _ => by ring
  rw [e2, e3] at l
  rw [e1]
  have l' := mul_le_mul_of_nonneg_left l (show 0 ≤ 2 * η by linarith)
  have u' := mul_le_mul_of_nonneg_left u (show 0 ≤ 2 * η by linarith)
  have w := mul_le_mul_of_nonneg_right h1 (mul_nonneg (sq_nonneg η) hs)
  nlinarith

/-- The run of gradient descent. -/
structure Run (m d q : Nat) (X : Nat → Nat → ℝ) (D : Nat → (Nat → ℝ) → Nat → ℝ) (lam η : ℝ) (W : Nat → Nat → Nat → ℝ) : Prop where
  step : ∀ t, IsStep m d q X D lam η (W t) (W (t + 1))

theorem run_antitone (g : Good m q L φ D) (hL : 0 ≤ L) {η : ℝ} (h0 : 0 ≤ η) (h2 : η * (L * ((∑ i ∈ range m, ∑ k ∈ range d, X i k ^ 2) / m) + lam) ≤ 2)
    {W : Nat → Nat → Nat → ℝ} (h : Run m d q X D lam η W) : Antitone fun t => obj m d q X φ lam (W t) :=
  antitone_nat_of_succ_le fun t => step_descends g hL h0 h2 (h.step t)

theorem run_rate (g : Good m q L φ D) (hL : 0 ≤ L) (hlam : 0 ≤ lam) {η : ℝ} (h0 : 0 < η) (h1 : η * (L * ((∑ i ∈ range m, ∑ k ∈ range d, X i k ^ 2) / m) + lam) ≤ 1)
    {W : Nat → Nat → Nat → ℝ} (h : Run m d q X D lam η W) (V : Nat → Nat → ℝ) {t : Nat} (ht : 0 < t) :
    obj m d q X φ lam (W t) ≤ obj m d q X φ lam V + sq d q (fun k j => W 0 k j - V k j) / (2 * η * t) := by
  have anti := run_antitone g hL h0.le (h1.trans (by norm_num)) h
  have step : ∀ t, sq d q (fun k j => W (t + 1) k j - V k j) + 2 * η * obj m d q X φ lam (W (t + 1)) ≤ sq d q (fun k j => W t k j - V k j) + 2 * η * obj m d q X φ lam V := fun t => by
    have := step_approaches g hL h0.le h1 (h.step t) V
    nlinarith [mul_nonneg (mul_nonneg h0.le hlam) (sq_nonneg' d q (fun k j => W t k j - V k j))]
  have all : ∀ t : Nat, 2 * η * t * (obj m d q X φ lam (W t) - obj m d q X φ lam V) ≤ sq d q (fun k j => W 0 k j - V k j) - sq d q (fun k j => W t k j - V k j) := by
    intro t
    induction t with
    | zero => simp
    | succ t ih =>
      have h3 : obj m d q X φ lam (W (t + 1)) ≤ obj m d q X φ lam (W t) := anti (Nat.le_succ t)
      have h4 : 2 * η * t * (obj m d q X φ lam (W (t + 1)) - obj m d q X φ lam V) ≤ 2 * η * t * (obj m d q X φ lam (W t) - obj m d q X φ lam V) :=
        mul_le_mul_of_nonneg_left (by linarith) (by positivity)
      have h5 := step t
      push_cast
      nlinarith
  have hNt := sq_nonneg' d q (fun k j => W t k j - V k j)
  have ht' : (0 : ℝ) < t := by exact_mod_cast ht
  rw [← sub_le_iff_le_add', le_div_iff₀ (by positivity)]
  have := all t
  nlinarith

/-- The objective converges to its infimum. -/
theorem run_optimal (g : Good m q L φ D) (hL : 0 ≤ L) (hlam : 0 ≤ lam) {η : ℝ} (h0 : 0 < η) (h1 : η * (L * ((∑ i ∈ range m, ∑ k ∈ range d, X i k ^ 2) / m) + lam) ≤ 1)
    (hb : BddBelow (Set.range (obj m d q X φ lam))) {W : Nat → Nat → Nat → ℝ} (h : Run m d q X D lam η W) :
    Tendsto (fun t => obj m d q X φ lam (W t)) atTop (𝓝 (⨅ V, obj m d q X φ lam V)) := by
  have lower : ∀ t, (⨅ V, obj m d q X φ lam V) ≤ obj m d q X φ lam (W t) := fun t => ciInf_le hb (W t)
  rw [Metric.tendsto_atTop]
  intro ε hε
  obtain ⟨V, hV⟩ := exists_lt_of_ciInf_lt (show (⨅ V, obj m d q X φ lam V) < (⨅ V, obj m d q X φ lam V) + ε / 2 by linarith)
  set S := sq d q (fun k j => W 0 k j - V k j) with hS
  have hS0 : 0 ≤ S := sq_nonneg' _ _ _
  obtain ⟨T, hT⟩ := exists_nat_gt (S / (2 * η) / (ε / 2))
  refine ⟨T + 1, fun t ht => ?_⟩
  have h5 := run_rate g hL hlam h0 h1 h V (t := t) (by omega)
  have ht' : (T : ℝ) + 1 ≤ t := by exact_mod_cast ht
  have hT0 : (0 : ℝ) ≤ T := Nat.cast_nonneg _
  have h6 : S / (2 * η * t) < ε / 2 := by
    have htp : (0 : ℝ) < t := by linarith
    rw [div_lt_iff₀ (by positivity)] at hT ⊢
    rw [div_lt_iff₀ (by positivity)] at hT
    nlinarith [mul_pos hε h0]
  rw [Real.dist_eq, abs_of_nonneg (sub_nonneg.2 (lower t))]
  linarith

/-- With a penalty the objective is strongly convex: two points that are almost optimal are close. -/
theorem midpoint (g : Good m q L φ D) (W V : Nat → Nat → ℝ) :
    lam / 4 * sq d q (fun k j => W k j - V k j) ≤ obj m d q X φ lam W + obj m d q X φ lam V - 2 * obj m d q X φ lam (fun k j => (W k j + V k j) / 2) := by
  set M : Nat → Nat → ℝ := fun k j => (W k j + V k j) / 2 with hM
  have a := obj_lower (d := d) (X := X) (lam := lam) g M W
  have b := obj_lower (d := d) (X := X) (lam := lam) g M V
  have e1 : sq d q (fun k j => W k j - M k j) = 1 / 4 * sq d q (fun k j => W k j - V k j) := by
    unfold sq; rw [mul_sum]
    refine sum_congr rfl fun k _ => ?_
    rw [mul_sum]
    exact sum_congr rfl fun j _ => by rw [hM]; ring
  have e2 : sq d q (fun k j => V k j - M k j) = 1 / 4 * sq d q (fun k j => W k j - V k j) := by
    unfold sq; rw [mul_sum]
    refine sum_congr rfl fun k _ => ?_
    rw [mul_sum]
    exact sum_congr rfl fun j _ => by rw [hM]; ring
  have e3 : ip d q (grad m d X D lam M) (fun k j => W k j - M k j) + ip d q (grad m d X D lam M) (fun k j => V k j - M k j) = 0 := by
    unfold ip
    rw [← sum_add_distrib]
    refine sum_eq_zero fun k _ => ?_
    rw [← sum_add_distrib]
    exact sum_eq_zero fun j _ => by rw [hM]; ring
  rw [e1] at a
  rw [e2] at b
  linarith

/-- With a positive penalty the weights converge to the only optimum, geometrically. -/
theorem run_converges (g : Good m q L φ D) (hL : 0 ≤ L) (hlam : 0 < lam) {η : ℝ} (h0 : 0 < η) (h1 : η * (L * ((∑ i ∈ range m, ∑ k ∈ range d, X i k ^ 2) / m) + lam) ≤ 1)
    (hb : BddBelow (Set.range (obj m d q X φ lam))) {W : Nat → Nat → Nat → ℝ} (h : Run m d q X D lam η W) :
    ∃ V : Nat → Nat → ℝ, (∀ U, obj m d q X φ lam V ≤ obj m d q X φ lam U) ∧
      (∀ t, sq d q (fun k j => W t k j - V k j) ≤ (1 - η * lam) ^ t * sq d q (fun k j => W 0 k j - V k j)) ∧
      ∀ k < d, ∀ j < q, Tendsto (fun t => W t k j) atTop (𝓝 (V k j)) := by
  have hopt := run_optimal g hL hlam.le h0 h1 hb h
  set I := ⨅ V, obj m d q X φ lam V with hI
  have low : ∀ U, I ≤ obj m d q X φ lam U := fun U => ciInf_le hb U
  -- entries are Cauchy
  have cau : ∀ k < d, ∀ j < q, CauchySeq fun t => W t k j := by
    intro k hk j hj
    rw [Metric.cauchySeq_iff]
    intro ε hε
    obtain ⟨N, hN⟩ := Metric.tendsto_atTop.1 hopt (lam / 8 * ε ^ 2) (by positivity)
    refine ⟨N, fun a ha b hb' => ?_⟩
    have A := hN a ha
    have B := hN b hb'
    rw [Real.dist_eq, abs_of_nonneg (sub_nonneg.2 (low _))] at A B
    have mid := midpoint (d := d) (X := X) (lam := lam) g (W a) (W b)
    have lm := low (fun k j => (W a k j + W b k j) / 2)
    have one : (W a k j - W b k j) ^ 2 ≤ sq d q (fun k j => W a k j - W b k j) := by
      unfold sq
      refine le_trans (single_le_sum (f := fun j => (W a k j - W b k j) ^ 2) (fun j _ => sq_nonneg _) (mem_range.2 hj)) ?_
      exact single_le_sum (f := fun k => ∑ j ∈ range q, (W a k j - W b k j) ^ 2) (fun k _ => sum_nonneg fun j _ => sq_nonneg _) (mem_range.2 hk)
    have : (W a k j - W b k j) ^ 2 < ε ^ 2 := by
      have h3 : lam / 4 * sq d q (fun k j => W a k j - W b k j) < lam / 4 * ε ^ 2 := by linarith
      exact lt_of_le_of_lt one (lt_of_mul_lt_mul_left h3 (by positivity))
    rw [Real.dist_eq]
    exact abs_lt_of_sq_lt_sq this hε.le
  have lim : ∀ k j, ∃ v, (k < d ∧ j < q) → Tendsto (fun t => W t k j) atTop (𝓝 v) := by
    intro k j
    by_cases hkj : k < d ∧ j < q
    · obtain ⟨v, hv⟩ := cauchySeq_tendsto_of_complete (cau k hkj.1 j hkj.2)
      exact ⟨v, fun _ => hv⟩
    · exact ⟨0, fun hh => absurd hh hkj⟩
  choose V hV using lim
  have hVI : obj m d q X φ lam V ≤ I := by
    have t1 : Tendsto (fun t => obj m d q X φ lam V + ip d q (grad m d X D lam V) (fun k j => W t k j - V k j)) atTop (𝓝 (obj m d q X φ lam V + 0)) := by
      refine tendsto_const_nhds.add ?_
      have : (0 : ℝ) = ∑ k ∈ range d, ∑ j ∈ range q, grad m d X D lam V k j * (V k j - V k j) := by simp
      rw [this]
      unfold ip
      exact tendsto_finsetSum _ fun k hk => tendsto_finsetSum _ fun j hj => tendsto_const_nhds.mul ((hV k j ⟨mem_range.1 hk, mem_range.1 hj⟩).sub_const _)
    rw [add_zero] at t1
    refine le_of_tendsto_of_tendsto' t1 hopt fun t => ?_
    have := obj_lower (d := d) (X := X) (lam := lam) g V (W t)
    nlinarith [mul_nonneg hlam.le (sq_nonneg' d q (fun k j => W t k j - V k j))]
  have hmin : ∀ U, obj m d q X φ lam V ≤ obj m d q X φ lam U := fun U => hVI.trans (low U)
  refine ⟨V, hmin, fun t => ?_, fun k hk j hj => hV k j ⟨hk, hj⟩⟩
  have hηl : 0 ≤ 1 - η * lam := by
    have : 0 ≤ η * (L * ((∑ i ∈ range m, ∑ k ∈ range d, X i k ^ 2) / m)) :=
      mul_nonneg h0.le (mul_nonneg hL (div_nonneg (sum_nonneg fun _ _ => sum_nonneg fun _ _ => sq_nonneg _) (Nat.cast_nonneg _)))
    nlinarith
  induction t with
  | zero => simp
  | succ t ih =>
    have := step_approaches g hL h0.le h1 (h.step t) V
    have h3 := hmin (W (t + 1))
    rw [pow_succ, mul_comm ((1 - η * lam) ^ t), mul_assoc]
    have h4 := mul_le_mul_of_nonneg_left ih hηl
    nlinarith [mul_le_mul_of_nonneg_left h3 (show 0 ≤ 2 * η by linarith)]

end Nnet.NN.GD
