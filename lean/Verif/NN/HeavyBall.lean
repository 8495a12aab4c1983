import Verif.NN.Convex
import Verif.NN.Kaczmarz
import Mathlib.Topology.Algebra.InfiniteSum.Real
import Mathlib.Analysis.Normed.Group.InfiniteSum
/-!
# Gradient descent with momentum on a smooth convex function

Used by C91. `v` is the averaged gradient, `W` the weights. With `A` the bound of the curvature, `η * A < 2` and `0 ≤ μ < 1` the energy
`obj W + η μ / (2 (1 - μ)) |v|^2` falls by a share of `|v|^2` in each step, and `z = W - η μ / (1 - μ) v` makes plain gradient steps.
-/
namespace Nnet.NN.GD
open Finset Filter Topology
noncomputable section

variable {m d q : Nat} {L lam η μ : ℝ} {X : Nat → Nat → ℝ} {φ : Nat → (Nat → ℝ) → ℝ} {D : Nat → (Nat → ℝ) → Nat → ℝ}

/-- One step with momentum. -/
structure MStep (m d q : Nat) (X : Nat → Nat → ℝ) (D : Nat → (Nat → ℝ) → Nat → ℝ) (lam η μ : ℝ) (W v W' v' : Nat → Nat → ℝ) : Prop where
  mix : ∀ k < d, ∀ j < q, v' k j = μ * v k j + (1 - μ) * grad m d X D lam W k j
  move : ∀ k < d, ∀ j < q, W' k j = W k j - η * v' k j

theorem ip_congr {A B A' B' : Nat → Nat → ℝ} (h1 : ∀ k < d, ∀ j < q, A k j = A' k j) (h2 : ∀ k < d, ∀ j < q, B k j = B' k j) : ip d q A B = ip d q A' B' :=
  sum_congr rfl fun k hk => sum_congr rfl fun j hj => by rw [h1 k (mem_range.1 hk) j (mem_range.1 hj), h2 k (mem_range.1 hk) j (mem_range.1 hj)]

theorem sq_congr {A A' : Nat → Nat → ℝ} (h1 : ∀ k < d, ∀ j < q, A k j = A' k j) : sq d q A = sq d q A' :=
  sum_congr rfl fun k hk => sum_congr rfl fun j hj => by rw [h1 k (mem_range.1 hk) j (mem_range.1 hj)]

theorem ip_comm' (A B : Nat → Nat → ℝ) : ip d q A B = ip d q B A := sum_congr rfl fun _ _ => sum_congr rfl fun _ _ => mul_comm _ _

theorem ip_comb (a b : ℝ) (A B C : Nat → Nat → ℝ) : ip d q (fun k j => a * A k j + b * B k j) C = a * ip d q A C + b * ip d q B C := by
  unfold ip
  rw [mul_sum, mul_sum, ← sum_add_distrib]
  refine sum_congr rfl fun k _ => ?_
  rw [mul_sum, mul_sum, ← sum_add_distrib]
  exact sum_congr rfl fun j _ => by ring

theorem ip_le (A B : Nat → Nat → ℝ) : 2 * ip d q A B ≤ sq d q A + sq d q B := by
  unfold ip sq
  rw [mul_sum, ← sum_add_distrib]
  refine sum_le_sum fun k _ => ?_
  rw [mul_sum, ← sum_add_distrib]
  exact sum_le_sum fun j _ => by nlinarith [sq_nonneg (A k j - B k j)]

theorem sq_scale (c : ℝ) (A : Nat → Nat → ℝ) : sq d q (fun k j => c * A k j) = c ^ 2 * sq d q A := by
  unfold sq
  rw [mul_sum]
  refine sum_congr rfl fun k _ => ?_
  rw [mul_sum]
  exact sum_congr rfl fun j _ => by ring

theorem sq_add_le (A B : Nat → Nat → ℝ) : sq d q (fun k j => A k j + B k j) ≤ 2 * sq d q A + 2 * sq d q B := by
  unfold sq
  rw [mul_sum, mul_sum, ← sum_add_distrib]
  refine sum_le_sum fun k _ => ?_
  rw [mul_sum, mul_sum, ← sum_add_distrib]
  exact sum_le_sum fun j _ => by nlinarith [sq_nonneg (A k j - B k j)]

/-- The energy of weights and direction. -/
def energy (m d q : Nat) (X : Nat → Nat → ℝ) (φ : Nat → (Nat → ℝ) → ℝ) (lam η μ : ℝ) (W v : Nat → Nat → ℝ) : ℝ :=
  obj m d q X φ lam W + η * μ / (2 * (1 - μ)) * sq d q v

variable {W v W' v' : Nat → Nat → ℝ}

/-- The curvature of the objective. -/
def curv (m d : Nat) (L lam : ℝ) (X : Nat → Nat → ℝ) : ℝ := L * ((∑ i ∈ range m, ∑ k ∈ range d, X i k ^ 2) / m) + lam

theorem mstep_ip (h : MStep m d q X D lam η μ W v W' v') : sq d q v' = μ * ip d q v v' + (1 - μ) * ip d q (grad m d X D lam W) v' := by
  rw [← ip_self, ← ip_comb]
  exact ip_congr h.mix fun _ _ _ _ => rfl

theorem mstep_energy (g : Good m q L φ D) (hL : 0 ≤ L) (h0 : 0 ≤ η) (hm : 0 ≤ μ) (hm1 : μ < 1) (h : MStep m d q X D lam η μ W v W' v') :
    energy m d q X φ lam η μ W' v' + η * (1 - η * curv m d L lam X / 2) * sq d q v' ≤ energy m d q X φ lam η μ W v := by
  have u := obj_upper (d := d) (X := X) (lam := lam) g hL W W'
  have e1 : ip d q (grad m d X D lam W) (fun k j => W' k j - W k j) = -η * ip d q (grad m d X D lam W) v' := by
    rw [ip_comm' _ v', ip_comm']
    have : ip d q (fun k j => W' k j - W k j) (grad m d X D lam W) = ip d q (fun k j => -η * v' k j + 0 * v' k j) (grad m d X D lam W) :=
      ip_congr (fun k hk j hj => by rw [h.move k hk j hj]; ring) fun _ _ _ _ => rfl
    rw [this, ip_comb]
    ring
  have e2 : sq d q (fun k j => W' k j - W k j) = η ^ 2 * sq d q v' := by
    rw [← neg_sq, ← sq_scale]
    exact sq_congr fun k hk j hj => by rw [h.move k hk j hj]; ring
  rw [e1, e2] at u
  have e3 := mstep_ip h
  have e4 := ip_le (d := d) (q := q) v v'
  unfold energy
  have hpos : 0 < 1 - μ := by linarith
  set K := η / (1 - μ) with hK
  have hK0 : 0 ≤ K := div_nonneg h0 hpos.le
  have e5 : η = K * (1 - μ) := by rw [hK]; field_simp
  have e6 : η * μ / (2 * (1 - μ)) = K * μ / 2 := by rw [hK]; field_simp
  rw [e6]
  have e7 : η * ip d q (grad m d X D lam W) v' = K * (sq d q v' - μ * ip d q v v') := by rw [e5, e3]; ring
  have e8 : K * μ * (2 * ip d q v v') ≤ K * μ * (sq d q v + sq d q v') := mul_le_mul_of_nonneg_left e4 (mul_nonneg hK0 hm)
  have e9 : η * sq d q v' = K * (1 - μ) * sq d q v' := by rw [← e5]
  unfold curv
  nlinarith

theorem mstep_grad (hm : 0 ≤ μ) (hm1 : μ < 1) (h : MStep m d q X D lam η μ W v W' v') : (1 - μ) ^ 2 * sq d q (grad m d X D lam W) ≤ 2 * sq d q v' + 2 * sq d q v := by
  rw [← sq_scale]
  have : sq d q (fun k j => (1 - μ) * grad m d X D lam W k j) = sq d q (fun k j => v' k j + (-μ) * v k j) := sq_congr fun k hk j hj => by rw [h.mix k hk j hj]; ring
  rw [this]
  refine (sq_add_le _ _).trans ?_
  rw [sq_scale]
  have := sq_nonneg' d q v
  have h1 : μ ^ 2 ≤ 1 := by nlinarith
  nlinarith

/-- Weights and directions over time. -/
structure MRun (m d q : Nat) (X : Nat → Nat → ℝ) (D : Nat → (Nat → ℝ) → Nat → ℝ) (lam η μ : ℝ) (W v : Nat → Nat → Nat → ℝ) : Prop where
  step : ∀ t, MStep m d q X D lam η μ (W t) (v t) (W (t + 1)) (v (t + 1))

variable {Ws vs : Nat → Nat → Nat → ℝ}

theorem mrun_antitone (g : Good m q L φ D) (hL : 0 ≤ L) (h0 : 0 ≤ η) (hm : 0 ≤ μ) (hm1 : μ < 1) (h2 : η * curv m d L lam X ≤ 2) (h : MRun m d q X D lam η μ Ws vs) :
    Antitone fun t => energy m d q X φ lam η μ (Ws t) (vs t) :=
  antitone_nat_of_succ_le fun t => by
    have := mstep_energy g hL h0 hm hm1 (h.step t)
    have h3 := mul_nonneg (mul_nonneg h0 (show 0 ≤ 1 - η * curv m d L lam X / 2 by linarith)) (sq_nonneg' d q (vs (t + 1)))
    linarith

theorem energy_ge (h0 : 0 ≤ η) (hm : 0 ≤ μ) (hm1 : μ < 1) {B : ℝ} (hB : ∀ V, B ≤ obj m d q X φ lam V) (W v : Nat → Nat → ℝ) : B ≤ energy m d q X φ lam η μ W v := by
  unfold energy
  have : 0 ≤ η * μ / (2 * (1 - μ)) * sq d q v := mul_nonneg (div_nonneg (mul_nonneg h0 hm) (by linarith)) (sq_nonneg' _ _ _)
  linarith [hB W]

theorem mrun_summable (g : Good m q L φ D) (hL : 0 ≤ L) (h0 : 0 < η) (hm : 0 ≤ μ) (hm1 : μ < 1) (h2 : η * curv m d L lam X < 2) {B : ℝ} (hB : ∀ V, B ≤ obj m d q X φ lam V)
    (h : MRun m d q X D lam η μ Ws vs) : Summable (fun t => sq d q (vs t)) := by
  rw [← summable_nat_add_iff 1]
  set γ := η * (1 - η * curv m d L lam X / 2) with hγ
  have hγ0 : 0 < γ := mul_pos h0 (by linarith)
  have key : ∀ n, γ * ∑ t ∈ range n, sq d q (vs (t + 1)) ≤ energy m d q X φ lam η μ (Ws 0) (vs 0) - energy m d q X φ lam η μ (Ws n) (vs n) := by
    intro n
    induction n with
    | zero => simp
    | succ n ih =>
      have := mstep_energy g hL h0.le hm hm1 (h.step n)
      rw [← hγ] at this
      rw [sum_range_succ, mul_add]
      linarith
  refine summable_of_sum_range_le (c := (energy m d q X φ lam η μ (Ws 0) (vs 0) - B) / γ) (fun _ => sq_nonneg' _ _ _) fun n => ?_
  rw [le_div_iff₀ hγ0, mul_comm]
  linarith [key n, energy_ge (m := m) (d := d) (q := q) h0.le hm hm1 hB (Ws n) (vs n)]

theorem mrun_grad_summable (g : Good m q L φ D) (hL : 0 ≤ L) (h0 : 0 < η) (hm : 0 ≤ μ) (hm1 : μ < 1) (h2 : η * curv m d L lam X < 2) {B : ℝ} (hB : ∀ V, B ≤ obj m d q X φ lam V)
    (h : MRun m d q X D lam η μ Ws vs) : Summable (fun t => sq d q (grad m d X D lam (Ws t))) := by
  have s := mrun_summable g hL h0 hm hm1 h2 hB h
  have s1 : Summable (fun t => (2 * sq d q (vs (t + 1)) + 2 * sq d q (vs t)) / (1 - μ) ^ 2) :=
    ((((summable_nat_add_iff 1).2 s).mul_left 2).add (s.mul_left 2)).div_const _
  refine Summable.of_nonneg_of_le (fun _ => sq_nonneg' _ _ _) (fun t => ?_) s1
  have : 0 < (1 - μ) ^ 2 := by have : 0 < 1 - μ := by linarith
                               positivity
  rw [le_div_iff₀ this, mul_comm]
  exact mstep_grad hm hm1 (h.step t)

/-- The objective converges. -/
theorem mrun_lim (g : Good m q L φ D) (hL : 0 ≤ L) (h0 : 0 < η) (hm : 0 ≤ μ) (hm1 : μ < 1) (h2 : η * curv m d L lam X < 2) {B : ℝ} (hB : ∀ V, B ≤ obj m d q X φ lam V)
    (h : MRun m d q X D lam η μ Ws vs) : ∃ F, Tendsto (fun t => obj m d q X φ lam (Ws t)) atTop (𝓝 F) := by
  have a := mrun_antitone g hL h0.le hm hm1 h2.le h
  have l1 := tendsto_atTop_ciInf a ⟨B, by rintro _ ⟨t, rfl⟩; exact energy_ge h0.le hm hm1 hB _ _⟩
  have l2 := ((mrun_summable g hL h0 hm hm1 h2 hB h).tendsto_atTop_zero).const_mul (η * μ / (2 * (1 - μ)))
  refine ⟨_, (l1.sub l2).congr fun t => ?_⟩
  unfold energy
  ring

/-- The point that makes plain steps. -/
def zpt (η μ : ℝ) (W v : Nat → Nat → ℝ) : Nat → Nat → ℝ := fun k j => W k j - η * μ / (1 - μ) * v k j

theorem mstep_z (hm1 : μ < 1) (h : MStep m d q X D lam η μ W v W' v') {k j : Nat} (hk : k < d) (hj : j < q) : zpt η μ W' v' k j = zpt η μ W v k j - η * grad m d X D lam W k j := by
  unfold zpt
  rw [h.move k hk j hj, h.mix k hk j hj]
  have : 1 - μ ≠ 0 := by linarith
  field_simp
  ring

/-- Two steps in a row bring `z` closer to weights `V` of smaller objective. -/
theorem mrun_closer (g : Good m q L φ D) (hlam : 0 ≤ lam) (h0 : 0 < η) (hm : 0 ≤ μ) (hm1 : μ < 1) (h : MRun m d q X D lam η μ Ws vs) (V : Nat → Nat → ℝ) (t : Nat) :
    sq d q (fun k j => zpt η μ (Ws (t + 2)) (vs (t + 2)) k j - V k j) + 2 * η * (μ / (1 - μ)) * obj m d q X φ lam (Ws (t + 1)) + 2 * η * (obj m d q X φ lam (Ws (t + 1)) - obj m d q X φ lam V) ≤
      sq d q (fun k j => zpt η μ (Ws (t + 1)) (vs (t + 1)) k j - V k j) + 2 * η * (μ / (1 - μ)) * obj m d q X φ lam (Ws t) + η ^ 2 * sq d q (grad m d X D lam (Ws (t + 1))) := by
  set G := grad m d X D lam (Ws (t + 1)) with hG
  have e1 : sq d q (fun k j => zpt η μ (Ws (t + 2)) (vs (t + 2)) k j - V k j) = sq d q (fun k j => (zpt η μ (Ws (t + 1)) (vs (t + 1)) k j - V k j) + (-η) * G k j) :=
    sq_congr fun k hk j hj => by rw [mstep_z hm1 (h.step (t + 1)) hk hj]; ring
  rw [e1, sq_expand]
  have e2 : ip d q (fun k j => zpt η μ (Ws (t + 1)) (vs (t + 1)) k j - V k j) G =
      ip d q (fun k j => Ws (t + 1) k j - V k j) G - η * μ / (1 - μ) * ip d q (vs (t + 1)) G := by
    have := ip_comb (d := d) (q := q) 1 (-(η * μ / (1 - μ))) (fun k j => Ws (t + 1) k j - V k j) (vs (t + 1)) G
    rw [one_mul] at this
    rw [show ip d q (fun k j => zpt η μ (Ws (t + 1)) (vs (t + 1)) k j - V k j) G = ip d q (fun k j => 1 * (Ws (t + 1) k j - V k j) + -(η * μ / (1 - μ)) * vs (t + 1) k j) G from
      ip_congr (fun k _ j _ => by unfold zpt; ring) fun _ _ _ _ => rfl, this]
    ring
  have l1 := obj_lower (d := d) (X := X) (lam := lam) g (Ws (t + 1)) V
  have l2 := obj_lower (d := d) (X := X) (lam := lam) g (Ws (t + 1)) (Ws t)
  rw [← hG] at l1 l2
  have e3 : ip d q G (fun k j => V k j - Ws (t + 1) k j) = -ip d q (fun k j => Ws (t + 1) k j - V k j) G := by
    rw [ip_comm' G]
    have := ip_comb (d := d) (q := q) (-1) 0 (fun k j => Ws (t + 1) k j - V k j) G G
    rw [show ip d q (fun k j => V k j - Ws (t + 1) k j) G = ip d q (fun k j => -1 * (Ws (t + 1) k j - V k j) + 0 * G k j) G from ip_congr (fun k _ j _ => by ring) fun _ _ _ _ => rfl, this]
    ring
  have e4 : ip d q G (fun k j => Ws t k j - Ws (t + 1) k j) = η * ip d q (vs (t + 1)) G := by
    rw [ip_comm' G]
    have := ip_comb (d := d) (q := q) η 0 (vs (t + 1)) G G
    rw [show ip d q (fun k j => Ws t k j - Ws (t + 1) k j) G = ip d q (fun k j => η * vs (t + 1) k j + 0 * G k j) G from
      ip_congr (fun k hk j hj => by rw [(h.step t).move k hk j hj]; ring) fun _ _ _ _ => rfl, this]
    ring
  rw [e3] at l1
  rw [e4] at l2
  rw [e2]
  have n1 := mul_nonneg (show 0 ≤ lam / 2 by linarith) (sq_nonneg' d q (fun k j => V k j - Ws (t + 1) k j))
  have n2 := mul_nonneg (show 0 ≤ lam / 2 by linarith) (sq_nonneg' d q (fun k j => Ws t k j - Ws (t + 1) k j))
  set c := μ / (1 - μ) with hc
  have hc0 : 0 ≤ c := div_nonneg hm (by linarith)
  have e5 : η * μ / (1 - μ) = η * c := by rw [hc]; ring
  rw [e5]
  have l3 : 2 * η * c * (η * ip d q (vs (t + 1)) G) ≤ 2 * η * c * (obj m d q X φ lam (Ws t) - obj m d q X φ lam (Ws (t + 1))) :=
    mul_le_mul_of_nonneg_left (by linarith) (by positivity)
  have l4 : 2 * η * (obj m d q X φ lam (Ws (t + 1)) - obj m d q X φ lam V) ≤ 2 * η * ip d q (fun k j => Ws (t + 1) k j - V k j) G :=
    mul_le_mul_of_nonneg_left (by linarith) (by positivity)
  nlinarith

/-- The potential that falls. -/
def pot (m d q : Nat) (X : Nat → Nat → ℝ) (φ : Nat → (Nat → ℝ) → ℝ) (D : Nat → (Nat → ℝ) → Nat → ℝ) (lam η μ : ℝ) (Ws vs : Nat → Nat → Nat → ℝ) (V : Nat → Nat → ℝ) (t : Nat) : ℝ :=
  sq d q (fun k j => zpt η μ (Ws (t + 1)) (vs (t + 1)) k j - V k j) + 2 * η * (μ / (1 - μ)) * obj m d q X φ lam (Ws t) - η ^ 2 * ∑ s ∈ range t, sq d q (grad m d X D lam (Ws (s + 1)))

theorem pot_step (g : Good m q L φ D) (hlam : 0 ≤ lam) (h0 : 0 < η) (hm : 0 ≤ μ) (hm1 : μ < 1) (h : MRun m d q X D lam η μ Ws vs) (V : Nat → Nat → ℝ) (t : Nat) :
    pot m d q X φ D lam η μ Ws vs V (t + 1) + 2 * η * (obj m d q X φ lam (Ws (t + 1)) - obj m d q X φ lam V) ≤ pot m d q X φ D lam η μ Ws vs V t := by
  have := mrun_closer g hlam h0 hm hm1 h V t
  unfold pot
  rw [sum_range_succ, mul_add]
  linarith

theorem pot_ge (g : Good m q L φ D) (hL : 0 ≤ L) (h0 : 0 < η) (hm : 0 ≤ μ) (hm1 : μ < 1) (h2 : η * curv m d L lam X < 2) {B : ℝ} (hB : ∀ V, B ≤ obj m d q X φ lam V)
    (h : MRun m d q X D lam η μ Ws vs) (V : Nat → Nat → ℝ) (t : Nat) :
    2 * η * (μ / (1 - μ)) * B - η ^ 2 * ∑' s, sq d q (grad m d X D lam (Ws (s + 1))) ≤ pot m d q X φ D lam η μ Ws vs V t := by
  have s := (summable_nat_add_iff 1).2 (mrun_grad_summable g hL h0 hm hm1 h2 hB h)
  have h3 := s.sum_le_tsum (range t) fun _ _ => sq_nonneg' _ _ _
  have h4 := mul_le_mul_of_nonneg_left h3 (sq_nonneg η)
  have h5 : 2 * η * (μ / (1 - μ)) * B ≤ 2 * η * (μ / (1 - μ)) * obj m d q X φ lam (Ws t) :=
    mul_le_mul_of_nonneg_left (hB _) (mul_nonneg (by linarith) (div_nonneg hm (by linarith)))
  have h6 := sq_nonneg' d q (fun k j => zpt η μ (Ws (t + 1)) (vs (t + 1)) k j - V k j)
  unfold pot
  linarith

/-- The objective converges to its infimum. -/
theorem mrun_optimal (g : Good m q L φ D) (hL : 0 ≤ L) (hlam : 0 ≤ lam) (h0 : 0 < η) (hm : 0 ≤ μ) (hm1 : μ < 1) (h2 : η * curv m d L lam X < 2) {B : ℝ}
    (hB : ∀ V, B ≤ obj m d q X φ lam V) (h : MRun m d q X D lam η μ Ws vs) : Tendsto (fun t => obj m d q X φ lam (Ws t)) atTop (𝓝 (⨅ V, obj m d q X φ lam V)) := by
  obtain ⟨F, hF⟩ := mrun_lim g hL h0 hm hm1 h2 hB h
  have bdd : BddBelow (Set.range (obj m d q X φ lam)) := ⟨B, by rintro _ ⟨V, rfl⟩; exact hB V⟩
  have le : ∀ V, F ≤ obj m d q X φ lam V := fun V => by
    by_contra hcon
    have hlt := not_le.1 hcon
    set δ := (F - obj m d q X φ lam V) / 2 with hδ
    have hδ0 : 0 < δ := by rw [hδ]; linarith
    obtain ⟨N, hN⟩ := eventually_atTop.1 (hF.eventually_const_lt (show obj m d q X φ lam V + δ < F by rw [hδ]; linarith))
    have down : ∀ n : Nat, pot m d q X φ D lam η μ Ws vs V (N + n) + n * (2 * η * δ) ≤ pot m d q X φ D lam η μ Ws vs V N := by
      intro n
      induction n with
      | zero => simp
      | succ n ih =>
        have h3 := pot_step g hlam h0 hm hm1 h V (N + n)
        have h4 := hN (N + n + 1) (by omega)
        have h5 : 2 * η * δ ≤ 2 * η * (obj m d q X φ lam (Ws (N + n + 1)) - obj m d q X φ lam V) := mul_le_mul_of_nonneg_left (by linarith) (by linarith)
        rw [← Nat.add_assoc]
        push_cast
        linarith
    obtain ⟨n, hn⟩ := exists_nat_gt ((pot m d q X φ D lam η μ Ws vs V N - (2 * η * (μ / (1 - μ)) * B - η ^ 2 * ∑' s, sq d q (grad m d X D lam (Ws (s + 1))))) / (2 * η * δ))
    rw [div_lt_iff₀ (by positivity)] at hn
    have h6 := down n
    have h7 := pot_ge g hL h0 hm hm1 h2 hB h V (N + n)
    linarith
  have : (⨅ V, obj m d q X φ lam V) = F := le_antisymm (ge_of_tendsto' hF fun t => ciInf_le bdd _) (le_ciInf le)
  rw [this]
  exact hF

/-- If the infimum is reached, the weights converge to weights that reach it. -/
theorem mrun_converges (g : Good m q L φ D) (hL : 0 ≤ L) (hlam : 0 ≤ lam) (h0 : 0 < η) (hm : 0 ≤ μ) (hm1 : μ < 1) (h2 : η * curv m d L lam X < 2)
    (h : MRun m d q X D lam η μ Ws vs) {V : Nat → Nat → ℝ} (hV : ∀ U, obj m d q X φ lam V ≤ obj m d q X φ lam U) :
    ∃ U, (∀ U', obj m d q X φ lam U ≤ obj m d q X φ lam U') ∧ ∀ k < d, ∀ j < q, Tendsto (fun t => Ws t k j) atTop (𝓝 (U k j)) := by
  have opt := mrun_optimal g hL hlam h0 hm hm1 h2 hV h
  have bdd : BddBelow (Set.range (obj m d q X φ lam)) := ⟨_, by rintro _ ⟨U, rfl⟩; exact hV U⟩
  set I := ⨅ U, obj m d q X φ lam U with hI
  have sg := (summable_nat_add_iff 1).2 (mrun_grad_summable g hL h0 hm hm1 h2 hV h)
  have sv := mrun_summable g hL h0 hm hm1 h2 hV h
  -- the distance of `z` to every optimum converges
  have dist : ∀ U, (∀ U', obj m d q X φ lam U ≤ obj m d q X φ lam U') → ∃ l, Tendsto (fun t => sq d q (fun k j => zpt η μ (Ws (t + 1)) (vs (t + 1)) k j - U k j)) atTop (𝓝 l) := fun U hU => by
    have anti : Antitone fun t => pot m d q X φ D lam η μ Ws vs U t := antitone_nat_of_succ_le fun t => by
      have := pot_step g hlam h0 hm hm1 h U t
      have h3 := mul_nonneg (show 0 ≤ 2 * η by linarith) (sub_nonneg.2 (hU (Ws (t + 1))))
      linarith
    have l1 := tendsto_atTop_ciInf anti ⟨_, by rintro _ ⟨t, rfl⟩; exact pot_ge g hL h0 hm hm1 h2 hV h U t⟩
    have l2 := opt.const_mul (2 * η * (μ / (1 - μ)))
    have l3 := sg.hasSum.tendsto_sum_nat.const_mul (η ^ 2)
    refine ⟨_, ((l1.sub l2).add l3).congr fun t => ?_⟩
    unfold pot
    ring
  -- the weights differ from `z` by a vanishing amount
  have vent : ∀ k < d, ∀ j < q, Tendsto (fun t => vs t k j) atTop (𝓝 0) := fun k hk j hj => by
    have h3 : Tendsto (fun t => (vs t k j) ^ 2) atTop (𝓝 0) := squeeze_zero (fun _ => sq_nonneg _) (fun t => entry_le (vs t) hk hj) sv.tendsto_atTop_zero
    have h4 := h3.sqrt
    simp only [Real.sqrt_sq_eq_abs, Real.sqrt_zero] at h4
    exact (tendsto_zero_iff_abs_tendsto_zero _).2 h4
  set z : Nat → Nat → Nat → ℝ := fun t => zpt η μ (Ws (t + 1)) (vs (t + 1)) with hz
  have zW : ∀ (ψ : Nat → Nat), Tendsto ψ atTop atTop → ∀ k < d, ∀ j < q, ∀ a, Tendsto (fun n => z (ψ n) k j) atTop (𝓝 a) → Tendsto (fun n => Ws (ψ n + 1) k j) atTop (𝓝 a) := fun ψ hψ k hk j hj a ha => by
    have h3 := ((vent k hk j hj).comp ((tendsto_add_atTop_nat 1).comp hψ)).const_mul (η * μ / (1 - μ))
    rw [mul_zero] at h3
    have h4 := ha.add h3
    rw [add_zero] at h4
    refine h4.congr fun n => ?_
    simp only [hz, zpt, Function.comp]
    ring
  -- a cluster point
  obtain ⟨l0, hl0⟩ := dist V hV
  obtain ⟨N, hN⟩ := hl0.bddAbove_range
  have inb : ∀ n, (fun (k : Fin d) (j : Fin q) => z n k j) ∈ Set.Icc (fun (k : Fin d) (j : Fin q) => V k j - Real.sqrt N) (fun k j => V k j + Real.sqrt N) := fun n => by
    have key : ∀ (k : Fin d) (j : Fin q), |z n k j - V k j| ≤ Real.sqrt N := fun k j => by
      rw [← Real.sqrt_sq_eq_abs]
      exact Real.sqrt_le_sqrt ((entry_le (fun k j => z n k j - V k j) k.2 j.2).trans (hN ⟨n, rfl⟩))
    exact ⟨fun k j => by have := abs_le.1 (key k j); show V k j - Real.sqrt N ≤ z n k j; linarith [this.1], fun k j => by
      have := abs_le.1 (key k j); show z n k j ≤ V k j + Real.sqrt N; linarith [this.2]⟩
  obtain ⟨a, -, ψ, hψ, hlim⟩ := isCompact_Icc.tendsto_subseq inb
  set U : Nat → Nat → ℝ := fun k j => if h : k < d ∧ j < q then a ⟨k, h.1⟩ ⟨j, h.2⟩ else 0 with hU
  have ent : ∀ k < d, ∀ j < q, Tendsto (fun n => z (ψ n) k j) atTop (𝓝 (U k j)) := fun k hk j hj => by
    have h1 := (tendsto_pi_nhds.1 ((tendsto_pi_nhds.1 hlim) ⟨k, hk⟩)) ⟨j, hj⟩
    rw [show U k j = a ⟨k, hk⟩ ⟨j, hj⟩ from dif_pos ⟨hk, hj⟩]
    exact h1
  have entW : ∀ k < d, ∀ j < q, Tendsto (fun n => Ws (ψ n + 1) k j) atTop (𝓝 (U k j)) := fun k hk j hj => zW ψ hψ.tendsto_atTop k hk j hj _ (ent k hk j hj)
  have hUI : obj m d q X φ lam U ≤ I := by
    have t1 : Tendsto (fun n => obj m d q X φ lam U + ip d q (grad m d X D lam U) (fun k j => Ws (ψ n + 1) k j - U k j)) atTop (𝓝 (obj m d q X φ lam U + 0)) := by
      refine tendsto_const_nhds.add ?_
      have : (0 : ℝ) = ∑ k ∈ range d, ∑ j ∈ range q, grad m d X D lam U k j * (U k j - U k j) := by simp
      rw [this]
      unfold ip
      exact tendsto_finsetSum _ fun k hk => tendsto_finsetSum _ fun j hj => tendsto_const_nhds.mul ((entW k (mem_range.1 hk) j (mem_range.1 hj)).sub_const _)
    rw [add_zero] at t1
    refine le_of_tendsto_of_tendsto' t1 (opt.comp ((tendsto_add_atTop_nat 1).comp hψ.tendsto_atTop)) fun n => ?_
    have := obj_lower (d := d) (X := X) (lam := lam) g U (Ws (ψ n + 1))
    have h5 := mul_nonneg (show 0 ≤ lam / 2 by linarith) (sq_nonneg' d q (fun k j => Ws (ψ n + 1) k j - U k j))
    simp only [Function.comp]
    linarith
  have hUmin : ∀ U', obj m d q X φ lam U ≤ obj m d q X φ lam U' := fun U' => hUI.trans (ciInf_le bdd U')
  refine ⟨U, hUmin, ?_⟩
  obtain ⟨l, hl⟩ := dist U hUmin
  have l2 : Tendsto (fun n => sq d q (fun k j => z (ψ n) k j - U k j)) atTop (𝓝 0) := by
    have : (0 : ℝ) = ∑ k ∈ range d, ∑ j ∈ range q, (U k j - U k j) ^ 2 := by simp
    rw [this]
    unfold sq
    exact tendsto_finsetSum _ fun k hk => tendsto_finsetSum _ fun j hj => ((ent k (mem_range.1 hk) j (mem_range.1 hj)).sub_const _).pow 2
  rw [tendsto_nhds_unique (hl.comp hψ.tendsto_atTop) l2] at hl
  intro k hk j hj
  have h3 : Tendsto (fun t => (z t k j - U k j) ^ 2) atTop (𝓝 0) := squeeze_zero (fun _ => sq_nonneg _) (fun t => entry_le (fun k j => z t k j - U k j) hk hj) hl
  have h4 := h3.sqrt
  simp only [Real.sqrt_sq_eq_abs, Real.sqrt_zero] at h4
  have h5 := ((tendsto_zero_iff_abs_tendsto_zero _).2 h4).add_const (U k j)
  simp only [sub_add_cancel, zero_add] at h5
  exact (tendsto_add_atTop_iff_nat 1).1 (zW id tendsto_id k hk j hj _ h5)

/-- Plain gradient descent is descent with momentum 0. -/
theorem Run.mrun (h : Run m d q X D lam η Ws) : MRun m d q X D lam η 0 Ws (fun t => if t = 0 then fun _ _ => 0 else grad m d X D lam (Ws (t - 1))) := by
  refine ⟨fun t => ⟨fun k hk j hj => ?_, fun k hk j hj => ?_⟩⟩
  · simp
  · simpa using h.step t k hk j hj

end
end Nnet.NN.GD
