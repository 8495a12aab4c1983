import Verif.NN.NetLemmas2
import Mathlib.Tactic.Linarith
import Mathlib.Tactic.NormNum
import Mathlib.Tactic.LinearCombination
import Mathlib.Tactic.FieldSimp
import Mathlib.Tactic.Positivity
/-!
# C34 random initialisation, C53 the input layer
-/
namespace Nnet.NN
open Finset
noncomputable section

theorem lex_lt {n a b i j : Nat} (hb : b < n) (hj : j < n) : a * n + b < i * n + j ↔ a < i ∨ (a = i ∧ b < j) := by
  constructor
  · intro h
    rcases Nat.lt_trichotomy a i with h1 | h1 | h1
    · exact Or.inl h1
    · subst h1; exact Or.inr ⟨rfl, by omega⟩
    · have : (i + 1) * n ≤ a * n := Nat.mul_le_mul_right _ h1
      have : (i + 1) * n = i * n + n := by ring
      omega
  · rintro (h | ⟨rfl, h⟩)
    · have : (a + 1) * n ≤ i * n := Nat.mul_le_mul_right _ h
      have : (a + 1) * n = a * n + n := by ring
      omega
    · omega

theorem lex_lt' {n a b i : Nat} (hb : b < n) : a * n + b < i * n ↔ a < i := by
  constructor
  · intro h
    by_contra hc
    have : i * n ≤ a * n := Nat.mul_le_mul_right _ (by omega)
    omega
  · intro h
    have : (a + 1) * n ≤ i * n := Nat.mul_le_mul_right _ h
    have : (a + 1) * n = a * n + n := by ring
    omega

/-- State of the first loop after `k` draws. -/
def fillState (draw : Nat → ℝ) (W : Mat ℝ) (k : Nat) : Mat ℝ × ℝ × Nat :=
  (Mat.of W.nr W.nc (fun a b => if a * W.nc + b < k then draw (a * W.nc + b) else W.f a b), ∑ t ∈ range k, draw t, k)

theorem fillState_step {draw : Nat → ℝ} {W : Mat ℝ} {i j : Nat} (hi : i < W.nr) (hj : j < W.nc) :
    (do let W' ← (fillState draw W (i * W.nc + j)).1.setAt i j (draw (fillState draw W (i * W.nc + j)).2.2)
        let v ← W'.at' i j
        .ok (W', (fillState draw W (i * W.nc + j)).2.1 + v, (fillState draw W (i * W.nc + j)).2.2 + 1) : Res _) =
      .ok (fillState draw W (i * W.nc + (j + 1))) := by
  rw [Mat.setAt_ok _ rfl rfl (by exact hi) (by exact hj), ok_bind, Mat.at_ok (by exact hi) (by exact hj), ok_bind]
  unfold fillState
  simp only [Mat.of_nr, Mat.of_nc]
  rw [Mat.of_f' hi hj, if_pos ⟨rfl, rfl⟩, ← Nat.add_assoc, Finset.sum_range_succ]
  congr 2
  apply Mat.of_congr
  intro a b ha hb
  rw [Mat.of_f' ha hb]
  by_cases h : a = i ∧ b = j
  · obtain ⟨rfl, rfl⟩ := h
    rw [if_pos ⟨rfl, rfl⟩, if_pos (by omega)]
  · rw [if_neg h]
    have h1 := lex_lt (n := W.nc) (a := a) (b := b) (i := i) (j := j) hb hj
    have h2 : a * W.nc + b < i * W.nc + j + 1 ↔ a * W.nc + b < i * W.nc + j := by
      constructor
      · intro hlt
        rcases Nat.lt_or_ge (a * W.nc + b) (i * W.nc + j) with hh | hh
        · exact hh
        · exfalso
          have : ¬ (a < i ∨ (a = i ∧ b < j)) := fun hh' => by have := h1.2 hh'; omega
          have h3 := lex_lt (n := W.nc) (a := i) (b := j) (i := a) (j := b) hj hb
          have : ¬ (i < a ∨ (i = a ∧ j < b)) := fun hh' => by have := h3.2 hh'; omega
          omega
      · omega
    simp only [h2]

theorem fillLoop_ok (draw : Nat → ℝ) (W : Mat ℝ) : Layer.fillLoop draw W = .ok
    (Mat.of W.nr W.nc (fun i j => draw (i * W.nc + j)), ∑ t ∈ range (W.nr * W.nc), draw t, W.nr * W.nc) := by
  unfold Layer.fillLoop
  have hfin : fillState draw W (W.nr * W.nc) =
      (Mat.of W.nr W.nc (fun i j => draw (i * W.nc + j)), ∑ t ∈ range (W.nr * W.nc), draw t, W.nr * W.nc) := by
    unfold fillState
    congr 1
    apply Mat.of_congr
    intro a b ha hb
    rw [if_pos ((lex_lt' hb).2 ha)]
  rw [← hfin]
  refine loop_eq (fun i => fillState draw W (i * W.nc)) ?_ ?_
  · show fillState draw W (0 * W.nc) = _
    unfold fillState
    simp only [Nat.zero_mul, Nat.not_lt_zero, if_false, range_zero, sum_empty]
    rw [Mat.of_self]
  · intro i hi
    have := loop_eq (n := W.nc) (body := fun j (s : Mat ℝ × ℝ × Nat) => (do
      let W' ← s.1.setAt i j (draw s.2.2)
      let v ← W'.at' i j
      .ok (W', s.2.1 + v, s.2.2 + 1) : Res _)) (s := fillState draw W (i * W.nc)) (fun j => fillState draw W (i * W.nc + j)) rfl
      (fun j hj => fillState_step hi hj)
    rw [this]
    congr 2
    ring

theorem devLoop_ok (W : Mat ℝ) (mean : ℝ) : Layer.devLoop W mean =
    .ok (∑ i ∈ range W.nr, ∑ j ∈ range W.nc, (mean - W.f i j) * (mean - W.f i j)) := by
  unfold Layer.devLoop
  refine loop_eq (fun i => ∑ i ∈ range i, ∑ j ∈ range W.nc, (mean - W.f i j) * (mean - W.f i j)) (by simp) ?_
  intro i hi
  have := loop_eq (n := W.nc) (body := fun j (dev : ℝ) => (do
    let v ← W.at' i j
    let diff := mean - v
    .ok (dev + diff * diff) : Res _)) (s := ∑ i ∈ range i, ∑ j ∈ range W.nc, (mean - W.f i j) * (mean - W.f i j))
    (fun j => ∑ i ∈ range i, ∑ j ∈ range W.nc, (mean - W.f i j) * (mean - W.f i j) + ∑ b ∈ range j, (mean - W.f i b) * (mean - W.f i b))
    (by simp) (fun j hj => by
      simp only [Mat.at_ok hi hj, ok_bind]
      rw [Finset.sum_range_succ, ← add_assoc])
  rw [this, Finset.sum_range_succ]

/-- Root mean square distance of the numbers `d 0, ..., d (n-1)` from `c`. -/
def rmsFrom (c : ℝ) (n : Nat) (d : Nat → ℝ) : ℝ := Real.sqrt ((∑ t ∈ range n, (c - d t) * (c - d t)) / n)

theorem sum_lex (r c : Nat) (g : Nat → ℝ) : ∑ i ∈ range r, ∑ j ∈ range c, g (i * c + j) = ∑ t ∈ range (r * c), g t := by
  induction r with
  | zero => simp
  | succ r ih =>
    rw [Finset.sum_range_succ, ih, Nat.succ_mul, Finset.sum_range_add]

/-- The weights after `randominit s` for an `r x c` layer. -/
def initW (dist : Draws) (r c : Nat) (s : ℝ) : Mat ℝ :=
  Mat.of r c (fun i j => s / rmsFrom (∑ t ∈ range (r * c), dist s t) (r * c) (dist s) * dist s (i * c + j))

theorem randominit_ok (dist : Draws) (L : Layer) (s : ℝ) :
    L.randominit dist s = .ok { L with W := initW dist L.W.nr L.W.nc s } := by
  unfold Layer.randominit
  rw [fillLoop_ok, ok_bind]
  simp only
  rw [devLoop_ok, ok_bind]
  have e : (∑ i ∈ range L.W.nr, ∑ j ∈ range L.W.nc,
      (∑ t ∈ range (L.W.nr * L.W.nc), dist s t - (Mat.of L.W.nr L.W.nc (fun i j => dist s (i * L.W.nc + j))).f i j) *
      (∑ t ∈ range (L.W.nr * L.W.nc), dist s t - (Mat.of L.W.nr L.W.nc (fun i j => dist s (i * L.W.nc + j))).f i j)) =
      ∑ t ∈ range (L.W.nr * L.W.nc), (∑ t ∈ range (L.W.nr * L.W.nc), dist s t - dist s t) * (∑ t ∈ range (L.W.nr * L.W.nc), dist s t - dist s t) := by
    rw [← sum_lex L.W.nr L.W.nc (fun t' => (∑ t ∈ range (L.W.nr * L.W.nc), dist s t - dist s t') * (∑ t ∈ range (L.W.nr * L.W.nc), dist s t - dist s t'))]
    refine sum_congr rfl fun i hi => sum_congr rfl fun j hj => ?_
    rw [Mat.of_f' (mem_range.1 hi) (mem_range.1 hj)]
  simp only [Mat.of_nr, Mat.of_nc]
  rw [e]
  congr 2
  refine Mat.ext' rfl rfl ?_
  intro i j (hi : i < L.W.nr) (hj : j < L.W.nc)
  unfold initW
  rw [Mat.smul_f, Mat.of_f' hi hj, Mat.of_f' hi hj]
  rfl

/-- **C34.** `randominit(s)` with `s ≥ 0` never throws, keeps everything but the weights, makes every weight the corresponding draw (row by
row) times one common factor, and — provided the draws are not all equal to their sum — the root mean square of
(sum of all weights - weight) is exactly `s`. -/
theorem C34_randominit (dist : Draws) (L : Layer) (s : ℝ) (hs : 0 ≤ s) :
    ∃ L', L.randominit dist s = .ok L' ∧ L' = { L with W := L'.W } ∧ L'.W.nr = L.W.nr ∧ L'.W.nc = L.W.nc ∧
      (∃ c, ∀ i j, i < L.W.nr → j < L.W.nc → L'.W.f i j = c * dist s (i * L.W.nc + j)) ∧
      ((∃ t < L.W.nr * L.W.nc, dist s t ≠ ∑ t ∈ range (L.W.nr * L.W.nc), dist s t) →
        Real.sqrt ((∑ i ∈ range L.W.nr, ∑ j ∈ range L.W.nc, (L'.W.accu - L'.W.f i j) ^ 2) / (L.W.nr * L.W.nc : ℕ)) = s) := by
  refine ⟨_, randominit_ok dist L s, rfl, rfl, rfl, ⟨_, fun i j hi hj => Mat.of_f' hi hj⟩, ?_⟩
  rintro ⟨t0, ht0, hne⟩
  set N := L.W.nr * L.W.nc with hN
  set S := ∑ t ∈ range N, dist s t with hS
  set ρ := rmsFrom S N (dist s) with hρ
  have hNpos : (0 : ℝ) < N := by exact_mod_cast (by omega : 0 < N)
  have hsum : 0 < ∑ t ∈ range N, (S - dist s t) * (S - dist s t) := by
    apply Finset.sum_pos' (fun t _ => mul_self_nonneg _)
    exact ⟨t0, mem_range.2 ht0, mul_self_pos.2 (sub_ne_zero.2 (Ne.symm hne))⟩
  have hρpos : 0 < ρ := Real.sqrt_pos.2 (div_pos hsum hNpos)
  have hacc : (Mat.of L.W.nr L.W.nc (fun i j => s / ρ * dist s (i * L.W.nc + j))).accu = s / ρ * S := by
    rw [Mat.accu_of, sum_lex L.W.nr L.W.nc (fun t => s / ρ * dist s t), ← Finset.mul_sum]
  have hall : (∑ i ∈ range L.W.nr, ∑ j ∈ range L.W.nc,
      ((Mat.of L.W.nr L.W.nc (fun i j => s / ρ * dist s (i * L.W.nc + j))).accu -
        (Mat.of L.W.nr L.W.nc (fun i j => s / ρ * dist s (i * L.W.nc + j))).f i j) ^ 2) =
      (s / ρ) ^ 2 * ∑ t ∈ range N, (S - dist s t) * (S - dist s t) := by
    rw [Finset.mul_sum, ← sum_lex L.W.nr L.W.nc (fun t => (s / ρ) ^ 2 * ((S - dist s t) * (S - dist s t)))]
    refine sum_congr rfl fun i hi => sum_congr rfl fun j hj => ?_
    rw [hacc, Mat.of_f' (mem_range.1 hi) (mem_range.1 hj)]
    ring
  show Real.sqrt ((∑ i ∈ range L.W.nr, ∑ j ∈ range L.W.nc,
      ((Mat.of L.W.nr L.W.nc (fun i j => s / ρ * dist s (i * L.W.nc + j))).accu -
        (Mat.of L.W.nr L.W.nc (fun i j => s / ρ * dist s (i * L.W.nc + j))).f i j) ^ 2) / N) = s
  rw [hall, mul_div_assoc, Real.sqrt_mul (sq_nonneg _), Real.sqrt_sq (by positivity)]
  show s / ρ * ρ = s
  field_simp

/-- Two layers of equal shape get identical weights from the same argument, whatever they held before. -/
theorem C34_deterministic (dist : Draws) (L M L' M' : Layer) (s : ℝ) (h1 : L.W.nr = M.W.nr) (h2 : L.W.nc = M.W.nc)
    (hL : L.randominit dist s = .ok L') (hM : M.randominit dist s = .ok M') : L'.W = M'.W := by
  rw [randominit_ok] at hL hM
  cases hL; cases hM
  simp only [h1, h2]

/-- The scale is measured from the *sum* of the weights, not from their mean: for some draws the standard deviation of the initial weights
is not the requested one. -/
theorem C34_not_standard_deviation : ∃ (dist : Draws) (L L' : Layer) (s : ℝ), 0 < s ∧ L.randominit dist s = .ok L' ∧ L'.W.nr = 1 ∧ L'.W.nc = 2 ∧
    rmsFrom (L'.W.accu / 2) 2 (fun t => L'.W.f 0 t) ≠ s := by
  refine ⟨fun _ k => if k = 0 then 1 else 0, { Layer.default with W := Mat.of 1 2 (fun _ _ => 0) }, _, 1, one_pos,
    randominit_ok _ _ _, rfl, rfl, ?_⟩
  simp only [Mat.of_nr, Mat.of_nc, initW]
  rw [Mat.accu_of]
  simp only [rmsFrom, Finset.sum_range_succ, Finset.sum_range_zero]
  simp only [Mat.of_f]
  norm_num
  intro h
  have h2 : (0 : ℝ) < Real.sqrt 2 := by positivity
  have h3 : Real.sqrt 2 * Real.sqrt 2 = 2 := Real.mul_self_sqrt (by norm_num)
  have e : (Real.sqrt 2 / 2 - Real.sqrt 2) * (Real.sqrt 2 / 2 - Real.sqrt 2) + Real.sqrt 2 / 2 * (Real.sqrt 2 / 2) = 1 := by
    linear_combination (1 / 2) * h3
  rw [e, Real.sqrt_one, div_eq_one_iff_eq h2.ne'] at h
  rw [← h] at h3
  norm_num at h3

/-- The hypotheses of `C34_randominit` are met by a layer with two weights and draws 1, 0. -/
example : ∃ (dist : Draws) (L : Layer), 0 < L.W.nr * L.W.nc ∧ ∃ t < L.W.nr * L.W.nc, dist 1 t ≠ ∑ t ∈ range (L.W.nr * L.W.nc), dist 1 t := by
  refine ⟨fun _ k => if k = 0 then 1 else 0, { Layer.default with W := Mat.of 1 2 (fun _ _ => 0) }, by simp, 1, by simp, ?_⟩
  simp

/-! ## C53 -/

/-- `InputLayer::forwardprop` returns its input unchanged and records it as the layer's output. -/
theorem C53_forwardprop (L : Layer) (x : Mat ℝ) : (InputLayer.forwardprop L x).1 = x ∧ (InputLayer.forwardprop L x).2.a = x ∧
    (InputLayer.forwardprop L x).2.W = L.W ∧ (InputLayer.forwardprop L x).2.lrate = L.lrate := ⟨rfl, rfl, rfl, rfl⟩

/-- `k` copy constructions in a row. -/
def copies (dist : Draws) (junk : Nat → Nat → ℝ) : Nat → Layer → Res Layer
  | 0, L => .ok L
  | k + 1, L => do
    let L' ← InputLayer.copyCtor dist junk L
    copies dist junk k L'

/-- Each copy construction succeeds, preserves learning rate, lambda, activation and the number of columns, but adds a row to the weight
matrix: after `k` copies `getpnnodes()` is `k` larger, so the reported size is preserved only by zero copies. (The full property says the
copy reports the same sizes; that is false.) -/
theorem C53_copy_partial (dist : Draws) (junk : Nat → Nat → ℝ) (k : Nat) (L : Layer) :
    ∃ L', copies dist junk k L = .ok L' ∧ L'.getpnnodes = L.getpnnodes + k ∧ L'.getnnodes = L.getnnodes ∧ L'.lrate = L.lrate ∧
      L'.lambda = L.lambda ∧ L'.actfunc = L.actfunc := by
  induction k generalizing L with
  | zero => exact ⟨L, rfl, rfl, rfl, rfl, rfl, rfl⟩
  | succ k ih =>
    have hc : ∃ L1, InputLayer.copyCtor dist junk L = .ok L1 ∧ L1.getpnnodes = L.getpnnodes + 1 ∧ L1.getnnodes = L.getnnodes ∧
        L1.lrate = L.lrate ∧ L1.lambda = L.lambda ∧ L1.actfunc = L.actfunc := by
      unfold InputLayer.copyCtor Layer.new Layer.newDev Mat.mk'
      rw [if_pos (by omega), ok_bind, ok_bind, randominit_ok]
      refine ⟨_, rfl, ?_, ?_, rfl, rfl, rfl⟩
      · show ((L.getpnnodes : Int) + 1).toNat = _
        omega
      · show ((L.W.nc : Int)).toNat = L.W.nc
        omega
    obtain ⟨L1, e1, a1, a2, a3, a4, a5⟩ := hc
    obtain ⟨L2, e2, b1, b2, b3, b4, b5⟩ := ih L1
    refine ⟨L2, ?_, by omega, b2.trans a2, b3.trans a3, b4.trans a4, b5.trans a5⟩
    unfold copies
    rw [e1, ok_bind]
    exact e2

/-- A copied input layer never reports the sizes of the original. -/
theorem C53_copy_changes_size (dist : Draws) (junk : Nat → Nat → ℝ) (L L' : Layer) (h : InputLayer.copyCtor dist junk L = .ok L') :
    L'.getpnnodes ≠ L.getpnnodes := by
  obtain ⟨M, e, h1, _⟩ := C53_copy_partial dist junk 1 L
  unfold copies at e
  rw [h, ok_bind] at e
  cases e
  omega

/-- Assignment does preserve everything. -/
theorem C53_assign (L : Layer) : InputLayer.assign L = L := rfl

end
end Nnet.NN
