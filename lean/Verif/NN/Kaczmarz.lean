import Verif.NN.Convex
import Mathlib.Topology.Order.Compact
import Mathlib.Topology.Order.MonotoneConvergence
import Mathlib.Topology.Sequences
/-!
# Least squares steps on one batch after the other, in turn, when an exact fit exists

Used for C90. Tables of numbers only; no network.
-/
namespace Nnet.NN.GD
open Finset Filter Topology

/-- A batch: `m` samples `X` with labels `Y`. -/
structure Bat where
  m : Nat
  X : Nat → Nat → ℝ
  Y : Nat → Nat → ℝ

/-- Sum of the squared errors. -/
def err (d q : Nat) (B : Bat) (W : Nat → Nat → ℝ) : ℝ := ∑ i ∈ range B.m, ∑ j ∈ range q, (pred d B.X W i j - B.Y i j) ^ 2

/-- Sum of the squared lengths of the samples. -/
def len2 (d : Nat) (B : Bat) : ℝ := ∑ i ∈ range B.m, ∑ k ∈ range d, B.X i k ^ 2

/-- `V` fits the batch exactly. -/
def Exact (d q : Nat) (B : Bat) (V : Nat → Nat → ℝ) : Prop := ∀ i < B.m, ∀ j < q, pred d B.X V i j = B.Y i j

/-- One step. -/
def LStep (d q : Nat) (B : Bat) (r : ℝ) (W W' : Nat → Nat → ℝ) : Prop :=
  ∀ k < d, ∀ j < q, W' k j = W k j - r * ∑ i ∈ range B.m, B.X i k * (pred d B.X W i j - B.Y i j)

variable {d q : Nat} {B : Bat} {r : ℝ} {W W' V : Nat → Nat → ℝ}

theorem err_nonneg (d q : Nat) (B : Bat) (W : Nat → Nat → ℝ) : 0 ≤ err d q B W := sum_nonneg fun _ _ => sum_nonneg fun _ _ => sq_nonneg _
theorem len2_nonneg (d : Nat) (B : Bat) : 0 ≤ len2 d B := sum_nonneg fun _ _ => sum_nonneg fun _ _ => sq_nonneg _

/-- The gradient: `Xᵀ (X W - Y)`. -/
def lgrad (d : Nat) (B : Bat) (W : Nat → Nat → ℝ) (k j : Nat) : ℝ := ∑ i ∈ range B.m, B.X i k * (pred d B.X W i j - B.Y i j)

theorem lgrad_ip (W U : Nat → Nat → ℝ) : ip d q (lgrad d B W) U = ∑ i ∈ range B.m, ∑ j ∈ range q, (pred d B.X W i j - B.Y i j) * pred d B.X U i j := by
  unfold ip lgrad pred
  calc _ = ∑ k ∈ range d, ∑ j ∈ range q, ∑ i ∈ range B.m, B.X i k * (pred d B.X W i j - B.Y i j) * U k j :=
        sum_congr rfl fun k _ => sum_congr rfl fun j _ => by rw [sum_mul]; rfl
    _ = ∑ k ∈ range d, ∑ i ∈ range B.m, ∑ j ∈ range q, B.X i k * (pred d B.X W i j - B.Y i j) * U k j := sum_congr rfl fun k _ => sum_comm
    _ = ∑ i ∈ range B.m, ∑ k ∈ range d, ∑ j ∈ range q, B.X i k * (pred d B.X W i j - B.Y i j) * U k j := sum_comm
    _ = ∑ i ∈ range B.m, ∑ j ∈ range q, ∑ k ∈ range d, B.X i k * (pred d B.X W i j - B.Y i j) * U k j := sum_congr rfl fun i _ => sum_comm
    _ = _ := sum_congr rfl fun i _ => sum_congr rfl fun j _ => by
        rw [mul_sum]
        exact sum_congr rfl fun k _ => by unfold pred; ring

/-- The squared gradient is at most the squared lengths times the squared errors. -/
theorem lgrad_sq : sq d q (lgrad d B W) ≤ len2 d B * err d q B W := by
  have h1 : sq d q (lgrad d B W) = ∑ i ∈ range B.m, ∑ j ∈ range q, (pred d B.X W i j - B.Y i j) * pred d B.X (lgrad d B W) i j := by rw [← ip_self, lgrad_ip]
  have h2 := pred_sq_le (m := B.m) (d := d) (q := q) (X := B.X) (lgrad d B W)
  have h3 : (∑ i ∈ range B.m, ∑ j ∈ range q, (pred d B.X W i j - B.Y i j) * pred d B.X (lgrad d B W) i j) ^ 2 ≤
      err d q B W * ∑ i ∈ range B.m, ∑ j ∈ range q, pred d B.X (lgrad d B W) i j ^ 2 := by
    unfold err
    rw [← sum_product', ← sum_product', ← sum_product']
    exact sum_mul_sq_le_sq_mul_sq _ _ _
  rw [← h1] at h3
  have e0 := err_nonneg d q B W
  have s0 := sq_nonneg' d q (lgrad d B W)
  have h4 : sq d q (lgrad d B W) ^ 2 ≤ (len2 d B * err d q B W) * sq d q (lgrad d B W) := by
    refine h3.trans ?_
    have := mul_le_mul_of_nonneg_left h2 e0
    unfold len2
    linarith
  by_contra hcon
  have h5 := not_le.1 hcon
  have h6 : 0 < sq d q (lgrad d B W) := lt_of_le_of_lt (mul_nonneg (len2_nonneg d B) e0) h5
  nlinarith

/-- A step brings the weights closer to every exact fit, by an amount proportional to the squared errors. -/
theorem lstep_closer (h : LStep d q B r W W') (hV : Exact d q B V) :
    sq d q (fun k j => W' k j - V k j) + r * (2 - r * len2 d B) * err d q B W ≤ sq d q (fun k j => W k j - V k j) := by
  have e1 : sq d q (fun k j => W' k j - V k j) = sq d q (fun k j => (W k j - V k j) + (-r) * lgrad d B W k j) := by
    unfold sq
    refine sum_congr rfl fun k hk => sum_congr rfl fun j hj => ?_
    simp only [h k (mem_range.1 hk) j (mem_range.1 hj)]
    unfold lgrad
    ring
  rw [e1, sq_expand]
  have e2 : ip d q (fun k j => W k j - V k j) (lgrad d B W) = err d q B W := by
    have : ip d q (fun k j => W k j - V k j) (lgrad d B W) = ip d q (lgrad d B W) (fun k j => W k j - V k j) := sum_congr rfl fun _ _ => sum_congr rfl fun _ _ => mul_comm _ _
    rw [this, lgrad_ip]
    unfold err
    refine sum_congr rfl fun i hi => sum_congr rfl fun j hj => ?_
    have := pred_sub (d := d) (X := B.X) V W i j
    rw [hV i (mem_range.1 hi) j (mem_range.1 hj)] at this
    rw [← this]
    ring
  rw [e2]
  have := mul_le_mul_of_nonneg_left (lgrad_sq (d := d) (q := q) (B := B) (W := W)) (sq_nonneg r)
  nlinarith

theorem lstep_small (h : LStep d q B r W W') : sq d q (fun k j => W' k j - W k j) ≤ r ^ 2 * len2 d B * err d q B W := by
  have e1 : sq d q (fun k j => W' k j - W k j) = r ^ 2 * sq d q (lgrad d B W) := by
    unfold sq
    rw [mul_sum]
    refine sum_congr rfl fun k hk => ?_
    rw [mul_sum]
    refine sum_congr rfl fun j hj => ?_
    simp only [h k (mem_range.1 hk) j (mem_range.1 hj)]
    unfold lgrad
    ring
  rw [e1, mul_assoc]
  exact mul_le_mul_of_nonneg_left lgrad_sq (sq_nonneg r)

theorem err_diff (B : Bat) (W W' : Nat → Nat → ℝ) : err d q B W ≤ 2 * err d q B W' + 2 * len2 d B * sq d q (fun k j => W' k j - W k j) := by
  have h2 := pred_sq_le (m := B.m) (d := d) (q := q) (X := B.X) (fun k j => W' k j - W k j)
  have h1 : err d q B W ≤ 2 * err d q B W' + 2 * ∑ i ∈ range B.m, ∑ j ∈ range q, pred d B.X (fun k j => W' k j - W k j) i j ^ 2 := by
    unfold err
    rw [mul_sum, mul_sum, ← sum_add_distrib]
    refine sum_le_sum fun i _ => ?_
    rw [mul_sum, mul_sum, ← sum_add_distrib]
    refine sum_le_sum fun j _ => ?_
    have := pred_sub (d := d) (X := B.X) W W' i j
    rw [← this]
    nlinarith [sq_nonneg (pred d B.X W' i j - B.Y i j + (pred d B.X W' i j - pred d B.X W i j))]
  unfold len2
  linarith

/-- Steps on the batches `B 0, ..., B (K-1)` in turn. -/
structure Cycle (d q K : Nat) (B : Nat → Bat) (r : Nat → ℝ) (W : Nat → Nat → Nat → ℝ) : Prop where
  pos : 0 < K
  period : ∀ t, B (t + K) = B t
  rperiod : ∀ t, r (t + K) = r t
  step : ∀ t, LStep d q (B t) (r t) (W t) (W (t + 1))
  rate : ∀ t, 0 < r t ∧ r t * len2 d (B t) < 2

variable {K : Nat} {Bs : Nat → Bat} {rs : Nat → ℝ} {Ws : Nat → Nat → Nat → ℝ}

theorem cycle_antitone (c : Cycle d q K Bs rs Ws) (hV : ∀ t, Exact d q (Bs t) V) : Antitone fun t => sq d q (fun k j => Ws t k j - V k j) :=
  antitone_nat_of_succ_le fun t => by
    have := lstep_closer (c.step t) (hV t)
    have h1 := c.rate t
    nlinarith [mul_nonneg (mul_nonneg h1.1.le (by linarith [h1.2] : (0 : ℝ) ≤ 2 - rs t * len2 d (Bs t))) (err_nonneg d q (Bs t) (Ws t))]

theorem period_mul (c : Cycle d q K Bs rs Ws) (l : Nat) : ∀ n : Nat, Bs (n * K + l) = Bs l ∧ rs (n * K + l) = rs l
  | 0 => by simp
  | n + 1 => by
    have : (n + 1) * K + l = n * K + l + K := by ring
    rw [this, c.period, c.rperiod]
    exact period_mul c l n

theorem cycle_visit (c : Cycle d q K Bs rs Ws) (hV : ∀ t, Exact d q (Bs t) V) (l : Nat) : Tendsto (fun n : Nat => err d q (Bs l) (Ws (n * K + l))) atTop (𝓝 0) := by
  have anti := cycle_antitone c hV
  have bdd : BddBelow (Set.range fun t => sq d q (fun k j => Ws t k j - V k j)) := ⟨0, by rintro _ ⟨t, rfl⟩; exact sq_nonneg' _ _ _⟩
  have lim := tendsto_atTop_ciInf anti bdd
  have lim2 := lim.comp (tendsto_add_atTop_nat 1)
  have diff := lim.sub lim2
  rw [sub_self] at diff
  have sub : Tendsto (fun n : Nat => n * K + l) atTop atTop := tendsto_atTop_mono (fun n => by nlinarith [c.pos] : ∀ n : Nat, n ≤ n * K + l) tendsto_id
  have diffs := diff.comp sub
  have hr := c.rate l
  set γ := rs l * (2 - rs l * len2 d (Bs l)) with hγ
  have hγ0 : 0 < γ := mul_pos hr.1 (by linarith [hr.2])
  have lim3 := diffs.div_const γ
  rw [zero_div] at lim3
  refine squeeze_zero (fun n => err_nonneg _ _ _ _) (fun n => ?_) lim3
  have := lstep_closer (c.step (n * K + l)) (hV (n * K + l))
  rw [(period_mul c l n).1, (period_mul c l n).2] at this
  show _ ≤ (_ - _) / γ
  rw [le_div_iff₀ hγ0]
  simp only [Function.comp]
  linarith

theorem cycle_small (c : Cycle d q K Bs rs Ws) (hV : ∀ t, Exact d q (Bs t) V) (l : Nat) : Tendsto (fun n : Nat => sq d q (fun k j => Ws (n * K + l + 1) k j - Ws (n * K + l) k j)) atTop (𝓝 0) := by
  have lim := (cycle_visit c hV l).const_mul (rs l ^ 2 * len2 d (Bs l))
  rw [mul_zero] at lim
  refine squeeze_zero (fun n => sq_nonneg' _ _ _) (fun n => ?_) lim
  have := lstep_small (c.step (n * K + l))
  rw [(period_mul c l n).1, (period_mul c l n).2] at this
  exact this

theorem cycle_errs (c : Cycle d q K Bs rs Ws) (hV : ∀ t, Exact d q (Bs t) V) : ∀ (i l : Nat), Tendsto (fun n : Nat => err d q (Bs (l + i)) (Ws (n * K + l))) atTop (𝓝 0)
  | 0, l => cycle_visit c hV l
  | i + 1, l => by
    have h1 := (cycle_errs c hV i (l + 1)).const_mul 2
    have h2 := (cycle_small c hV l).const_mul (2 * len2 d (Bs (l + (i + 1))))
    have h3 := h1.add h2
    rw [mul_zero, mul_zero, add_zero] at h3
    refine squeeze_zero (fun n => err_nonneg _ _ _ _) (fun n => ?_) h3
    have := err_diff (d := d) (q := q) (Bs (l + (i + 1))) (Ws (n * K + l)) (Ws (n * K + l + 1))
    rw [show l + 1 + i = l + (i + 1) by ring, show n * K + (l + 1) = n * K + l + 1 by ring]
    exact this

theorem entry_le (U : Nat → Nat → ℝ) {k j : Nat} (hk : k < d) (hj : j < q) : U k j ^ 2 ≤ sq d q U :=
  (single_le_sum (f := fun j => U k j ^ 2) (fun _ _ => sq_nonneg _) (mem_range.2 hj)).trans
    (single_le_sum (f := fun k => ∑ j ∈ range q, U k j ^ 2) (fun _ _ => sum_nonneg fun _ _ => sq_nonneg _) (mem_range.2 hk))

/-- The weights converge to an exact fit. -/
theorem cycle_converges (c : Cycle d q K Bs rs Ws) (hV : ∀ t, Exact d q (Bs t) V) :
    ∃ U, (∀ t, Exact d q (Bs t) U) ∧ Tendsto (fun t => sq d q (fun k j => Ws t k j - U k j)) atTop (𝓝 0) := by
  have anti := cycle_antitone c hV
  set N := sq d q (fun k j => Ws 0 k j - V k j) with hN
  set u : Nat → (Fin d → Fin q → ℝ) := fun n k j => Ws (n * K) k j with hu
  set lo : Fin d → Fin q → ℝ := fun k j => V k j - Real.sqrt N with hlo
  set hi : Fin d → Fin q → ℝ := fun k j => V k j + Real.sqrt N with hhi
  have inb : ∀ n, u n ∈ Set.Icc lo hi := fun n => by
    have key : ∀ (k : Fin d) (j : Fin q), |Ws (n * K) k j - V k j| ≤ Real.sqrt N := fun k j => by
      rw [← Real.sqrt_sq_eq_abs]
      exact Real.sqrt_le_sqrt ((entry_le (fun k j => Ws (n * K) k j - V k j) k.2 j.2).trans (anti (Nat.zero_le _)))
    exact ⟨fun k j => by have := abs_le.1 (key k j); show V k j - Real.sqrt N ≤ Ws (n * K) k j; linarith [this.1], fun k j => by
      have := abs_le.1 (key k j); show Ws (n * K) k j ≤ V k j + Real.sqrt N; linarith [this.2]⟩
  obtain ⟨a, -, φ, hφ, hlim⟩ := isCompact_Icc.tendsto_subseq inb
  set U : Nat → Nat → ℝ := fun k j => if h : k < d ∧ j < q then a ⟨k, h.1⟩ ⟨j, h.2⟩ else 0 with hU
  have ent : ∀ k < d, ∀ j < q, Tendsto (fun n => Ws (φ n * K) k j) atTop (𝓝 (U k j)) := fun k hk j hj => by
    have h1 := (tendsto_pi_nhds.1 ((tendsto_pi_nhds.1 hlim) ⟨k, hk⟩)) ⟨j, hj⟩
    rw [show U k j = a ⟨k, hk⟩ ⟨j, hj⟩ from dif_pos ⟨hk, hj⟩]
    exact h1
  have exact : ∀ t, Exact d q (Bs t) U := fun t => by
    have e1 : Tendsto (fun n => err d q (Bs t) (Ws (φ n * K))) atTop (𝓝 (err d q (Bs t) U)) := by
      unfold err pred
      refine tendsto_finsetSum _ fun i _ => tendsto_finsetSum _ fun j hj => ?_
      refine ((tendsto_finsetSum _ fun k hk => ?_).sub_const _).pow 2
      exact (ent k (mem_range.1 hk) j (mem_range.1 hj)).const_mul _
    have e2 := (cycle_errs c hV t 0).comp hφ.tendsto_atTop
    simp only [Nat.zero_add] at e2
    have e3 := tendsto_nhds_unique e1 e2
    unfold err at e3
    rw [sum_eq_zero_iff_of_nonneg fun _ _ => sum_nonneg fun _ _ => sq_nonneg _] at e3
    intro i hi j hj
    have e4 := e3 i (mem_range.2 hi)
    rw [sum_eq_zero_iff_of_nonneg fun _ _ => sq_nonneg _] at e4
    have := pow_eq_zero_iff (two_ne_zero) |>.1 (e4 j (mem_range.2 hj))
    linarith
  refine ⟨U, exact, ?_⟩
  have anti2 := cycle_antitone c exact
  have bdd : BddBelow (Set.range fun t => sq d q (fun k j => Ws t k j - U k j)) := ⟨0, by rintro _ ⟨t, rfl⟩; exact sq_nonneg' _ _ _⟩
  have lim := tendsto_atTop_ciInf anti2 bdd
  have sub : Tendsto (fun n : Nat => φ n * K) atTop atTop := tendsto_atTop_mono (fun n => by nlinarith [c.pos] : ∀ n : Nat, φ n ≤ φ n * K) hφ.tendsto_atTop
  have l1 := lim.comp sub
  have l2 : Tendsto (fun n => sq d q (fun k j => Ws (φ n * K) k j - U k j)) atTop (𝓝 0) := by
    have : (0 : ℝ) = ∑ k ∈ range d, ∑ j ∈ range q, (U k j - U k j) ^ 2 := by simp
    rw [this]
    unfold sq
    exact tendsto_finsetSum _ fun k hk => tendsto_finsetSum _ fun j hj => ((ent k (mem_range.1 hk) j (mem_range.1 hj)).sub_const _).pow 2
  rw [tendsto_nhds_unique l1 l2] at lim
  exact lim

end Nnet.NN.GD
