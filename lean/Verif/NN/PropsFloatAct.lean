import Verif.NN.FloatWitness
/-!
# C72: activation functions in floating point
-/
namespace Nnet.NN.Flt
open FV Arith Ieee

/-! ## Specification -/

/-- The `double` `x` is a number between `a` and `b`. -/
def Spec.Between {F : Type} [Ieee F] (a b : ℝ) (x : F) : Prop := ∃ q, val x = fin q ∧ a ≤ q ∧ q ≤ b

/-- The `double` `x` is a number. -/
def Spec.Number {F : Type} [Ieee F] (x : F) : Prop := ∃ q, val x = fin q

/-- The `double` `x` is NaN. -/
def Spec.NaN {F : Type} [Ieee F] (x : F) : Prop := val x = nan

open Spec

/-! ## Rounding and values -/

section
variable {F : Type} [Ieee F]

theorem rnd_le {r s : ℝ} (h : r ≤ s) : Le (Ieee.rnd F r) (Ieee.rnd F s) := (Ieee.rounding (F := F)).mono r s h
theorem rnd_int (n : ℤ) (h : |n| ≤ 2 ^ 53) : Ieee.rnd F n = fin n := (Ieee.rounding (F := F)).int n h
theorem rnd_0 : Ieee.rnd F 0 = fin 0 := by simpa using rnd_int (F := F) 0 (by norm_num)
theorem rnd_1 : Ieee.rnd F 1 = fin 1 := by simpa using rnd_int (F := F) 1 (by norm_num)
theorem rnd_2 : Ieee.rnd F 2 = fin 2 := by simpa using rnd_int (F := F) 2 (by norm_num)
theorem rnd_3 : Ieee.rnd F 3 = fin 3 := by simpa using rnd_int (F := F) 3 (by norm_num)
theorem rnd_4 : Ieee.rnd F 4 = fin 4 := by simpa using rnd_int (F := F) 4 (by norm_num)
theorem rnd_m1 : Ieee.rnd F (-1) = fin (-1) := by simpa using rnd_int (F := F) (-1) (by norm_num)
theorem rnd_m2 : Ieee.rnd F (-2) = fin (-2) := by simpa using rnd_int (F := F) (-2) (by norm_num)

theorem Le_fin {a : ℝ} {v : FV} {b : ℝ} (h1 : Le (fin a) v) (h2 : Le v (fin b)) : ∃ q, v = fin q ∧ a ≤ q ∧ q ≤ b := by
  cases v with
  | nan => exact h1.elim
  | pinf => exact h2.elim
  | ninf => exact h1.elim
  | fin q => exact ⟨q, rfl, h1, h2⟩

/-- A result between two small integers is rounded to a number between them. -/
theorem rnd_between {r : ℝ} {a b : ℤ} (ha : |a| ≤ 2 ^ 53) (hb : |b| ≤ 2 ^ 53) (h1 : a ≤ r) (h2 : r ≤ b) : ∃ q, Ieee.rnd F r = fin q ∧ a ≤ q ∧ q ≤ b := by
  have h3 := rnd_le (F := F) h1
  have h4 := rnd_le (F := F) h2
  rw [rnd_int a ha] at h3
  rw [rnd_int b hb] at h4
  exact Le_fin h3 h4

theorem rnd_notNan (r : ℝ) : Ieee.rnd F r ≠ nan := (Ieee.rounding (F := F)).notNan r

theorem lit_2 : val (lit 2 : F) = fin 2 := by rw [val_lit]; simpa using rnd_2 (F := F)
theorem lit_3 : val (lit 3 : F) = fin 3 := by rw [val_lit]; simpa using rnd_3 (F := F)
theorem lit_4 : val (lit 4 : F) = fin 4 := by rw [val_lit]; simpa using rnd_4 (F := F)
theorem lit_m1 : val (lit (-1) : F) = fin (-1) := by rw [val_lit]; simpa using rnd_m1 (F := F)

theorem Lt_irrefl_nan {v : FV} : ¬ Lt nan v := by cases v <;> exact fun h => h.elim
theorem Lt_nan {v : FV} : ¬ Lt v nan := by cases v <;> exact fun h => h.elim
theorem Le_nan {v : FV} : ¬ Le v nan := by cases v <;> exact fun h => h.elim
theorem nan_Le {v : FV} : ¬ Le nan v := by cases v <;> exact fun h => h.elim

theorem neg_nan {x : F} (h : val x = nan) : val (-x) = nan := by rw [val_neg, h]; rfl
theorem add_nan {x y : F} (h : val x = nan ∨ val y = nan) : val (x + y) = nan := by
  rw [val_add]
  rcases h with h | h <;> rw [h]
  · cases val y <;> rfl
  · cases val x <;> rfl
theorem sub_nan {x y : F} (h : val x = nan ∨ val y = nan) : val (x - y) = nan := by
  rw [val_sub]
  rcases h with h | h <;> rw [h]
  · cases (val y).neg <;> rfl
  · cases val x <;> rfl
theorem mul_nan {x y : F} (h : val x = nan ∨ val y = nan) : val (x * y) = nan := by
  rw [val_mul]
  rcases h with h | h <;> rw [h]
  · cases val y <;> rfl
  · cases val x <;> rfl
theorem div_nan {x y : F} (h : val x = nan ∨ val y = nan) : val (x / y) = nan := by
  have hd := val_div x y
  rcases h with h | h <;> rw [h] at hd
  · cases hy : val y <;> rw [hy] at hd <;> exact hd
  · cases hx : val x <;> rw [hx] at hd <;> exact hd
theorem exp_nan {x : F} (h : val x = nan) : val (exp x) = nan := by
  have := val_exp x
  rw [h] at this
  exact this
theorem log_nan {x : F} (h : val x = nan) : val (log x) = nan := by
  have := val_log x
  rw [h] at this
  exact this

/-- `exp` of a non-NaN is 0, a positive number or infinity. -/
theorem exp_nonneg {x : F} (h : val x ≠ nan) : Le (fin 0) (val (exp x)) := by
  have he := val_exp x
  cases hx : val x with
  | nan => exact absurd hx h
  | pinf => rw [hx] at he; rw [show val (exp x) = pinf from he]; trivial
  | ninf => rw [hx] at he; rw [show val (exp x) = fin 0 from he]; exact le_refl (0 : ℝ)
  | fin a => rw [hx] at he; exact he.1

theorem exp_cases {x : F} (h : val x ≠ nan) : val (exp x) = pinf ∨ ∃ q, 0 ≤ q ∧ val (exp x) = fin q := by
  have := exp_nonneg h
  cases hx : val (exp x) with
  | nan => rw [hx] at this; exact this.elim
  | pinf => exact .inl rfl
  | ninf => rw [hx] at this; exact this.elim
  | fin q => rw [hx] at this; exact .inr ⟨q, this, rfl⟩

/-- `1 + exp(x)` is a number at least 1 or infinity. -/
theorem one_add_exp {x : F} (h : val x ≠ nan) : (val (exp x) = pinf ∧ val (1 + exp x) = pinf) ∨
    ∃ q, 0 ≤ q ∧ val (exp x) = fin q ∧ (val (1 + exp x) = pinf ∨ ∃ r, 1 ≤ r ∧ val (1 + exp x) = fin r) := by
  rw [val_add, val_one]
  rcases exp_cases h with h | ⟨q, hq, h⟩
  · exact .inl ⟨h, by rw [h]; rfl⟩
  · refine .inr ⟨q, hq, h, ?_⟩
    rw [h]
    show Ieee.rnd F (1 + q) = pinf ∨ _
    have h1 : Le (fin 1) (Ieee.rnd F (1 + q)) := by rw [← rnd_1 (F := F)]; exact rnd_le (by linarith)
    cases hr : Ieee.rnd F (1 + q) with
    | nan => exact absurd hr (rnd_notNan _)
    | pinf => exact .inl rfl
    | ninf => rw [hr] at h1; exact h1.elim
    | fin r =>
      rw [hr] at h1
      exact .inr ⟨r, h1, hr⟩

theorem div_fin {x y : F} {a b : ℝ} (hx : val x = fin a) (hy : val y = fin b) (hb : b ≠ 0) : val (x / y) = Ieee.rnd F (a / b) := by
  have hd := val_div x y
  rw [hx, hy] at hd
  simp only [IsDiv] at hd
  rwa [if_neg hb] at hd

/-- A number divided by a number at least 1 in size, or by infinity. -/
theorem div_ok {x y : F} {a : ℝ} (hx : val x = fin a) (hy : val y = pinf ∨ ∃ r, 1 ≤ r ∧ val y = fin r) : (val y = pinf ∧ val (x / y) = fin 0) ∨ ∃ r, 1 ≤ r ∧ val y = fin r ∧ val (x / y) = Ieee.rnd F (a / r) := by
  have hd := val_div x y
  rw [hx] at hd
  rcases hy with hy | ⟨r, hr, hy⟩
  · rw [hy] at hd
    exact .inl ⟨hy, hd⟩
  · exact .inr ⟨r, hr, hy, div_fin hx hy (by linarith)⟩

theorem denom {x : F} (h : val x ≠ nan) : val (1 + exp x) = pinf ∨ ∃ r, 1 ≤ r ∧ val (1 + exp x) = fin r := by
  rcases one_add_exp h with ⟨_, h⟩ | ⟨q, _, _, h⟩
  · exact .inl h
  · exact h

theorem neg_ne_nan {x : F} (h : val x ≠ nan) : val (-x) ≠ nan := by
  rw [val_neg]
  cases hx : val x <;> simp [FV.neg]
  exact h hx

theorem num_ne_nan {x : F} (h : Number x) : val x ≠ nan := by
  obtain ⟨q, h⟩ := h
  rw [h]
  simp

theorem neg_fin {x : F} {a : ℝ} (h : val x = fin a) : val (-x) = fin (-a) := by rw [val_neg, h]; rfl

theorem div_between {c : F} {k : ℤ} (hc : val c = fin k) (hk : 0 ≤ k) (hk2 : k ≤ 2) {y : F} (hy : val y = pinf ∨ ∃ r, 1 ≤ r ∧ val y = fin r) : Between 0 k (c / y) := by
  have hkR : (0 : ℝ) ≤ k := by exact_mod_cast hk
  rcases div_ok hc hy with ⟨_, h⟩ | ⟨r, hr, _, h⟩
  · exact ⟨0, h, le_refl _, hkR⟩
  · obtain ⟨q, h1, h2, h3⟩ := rnd_between (F := F) (r := k / r) (a := 0) (b := k) (by norm_num) (by rw [abs_of_nonneg hk]; omega) (by push_cast; positivity) (div_le_self hkR hr)
    exact ⟨q, h.trans h1, by simpa using h2, h3⟩

/-! ## Values -/

theorem sigmoid_range {z : F} (h : val z ≠ nan) : Between 0 1 (Act.sigmoidF z) := by
  have := div_between (F := F) (c := 1) (k := 1) (by rw [val_one]; simp) (by norm_num) (by norm_num) (denom (neg_ne_nan h))
  simpa [Act.sigmoidF] using this

theorem tanh_range {z : F} (h : val z ≠ nan) : Between (-1) 1 (Act.tanhF z) := by
  have ht := val_tanh z
  unfold Act.tanhF
  cases hz : val z with
  | nan => exact absurd hz h
  | pinf => rw [hz] at ht; exact ⟨1, ht, by norm_num, by norm_num⟩
  | ninf => rw [hz] at ht; exact ⟨-1, ht, by norm_num, by norm_num⟩
  | fin a => rw [hz] at ht; exact ht

theorem arctan_range {z : F} (h : val z ≠ nan) : Between (-2) 2 (Act.arctanF z) := by
  have ht := val_atan z
  unfold Act.arctanF
  cases hz : val z with
  | nan => exact absurd hz h
  | pinf => rw [hz] at ht; exact ht
  | ninf => rw [hz] at ht; exact ht
  | fin a => rw [hz] at ht; exact ht

theorem sub_between {x y : F} {a b : ℝ} {l u : ℤ} (hx : val x = fin a) (hy : val y = fin b) (hl : |l| ≤ 2 ^ 53) (hu : |u| ≤ 2 ^ 53) (h1 : l ≤ a - b) (h2 : a - b ≤ u) :
    Between l u (x - y) := by
  unfold Between
  rw [val_sub, hx, hy]
  exact rnd_between hl hu (by rw [← sub_eq_add_neg]; exact h1) (by rw [← sub_eq_add_neg]; exact h2)

theorem mul_between {x y : F} {a b : ℝ} {l u : ℤ} (hx : val x = fin a) (hy : val y = fin b) (hl : |l| ≤ 2 ^ 53) (hu : |u| ≤ 2 ^ 53) (h1 : l ≤ a * b) (h2 : a * b ≤ u) :
    Between l u (x * y) := by
  unfold Between
  rw [val_mul, hx, hy]
  exact rnd_between hl hu h1 h2

theorem bipolarsigmoid_range {z : F} (h : val z ≠ nan) : Between (-1) 1 (Act.bipolarsigmoidF z) := by
  obtain ⟨q, h1, h2, h3⟩ := div_between (F := F) (c := lit 2) (k := 2) (by rw [lit_2]; simp) (by norm_num) (by norm_num) (denom (neg_ne_nan h))
  have := sub_between (F := F) (x := lit 2 / (1 + exp (-z))) (y := 1) (l := -1) (u := 1) h1 val_one (by norm_num) (by norm_num) (by push_cast; linarith) (by push_cast at *; linarith)
  simpa [Act.bipolarsigmoidF] using this

theorem exp_nonpos {x : F} (h : Le (val x) (fin 0)) : Between 0 1 (exp x) := by
  have he := val_exp x
  cases hx : val x with
  | nan => rw [hx] at h; exact h.elim
  | pinf => rw [hx] at h; exact h.elim
  | ninf => rw [hx] at he; exact ⟨0, he, le_refl _, zero_le_one⟩
  | fin a =>
    rw [hx] at he h
    exact Le_fin he.1 (he.2.2.2.2.2.2.1 h)

theorem neg_exp_nonpos {x : F} (h : val x ≠ nan) : Le (val (-exp x)) (fin 0) := by
  rw [val_neg]
  rcases exp_cases h with h | ⟨q, hq, h⟩ <;> rw [h]
  · trivial
  · show -q ≤ 0
    linarith

theorem comploglog_range {z : F} (h : val z ≠ nan) : Between 0 1 (Act.comploglogF z) := by
  obtain ⟨q, h1, h2, h3⟩ := exp_nonpos (neg_exp_nonpos h)
  have := sub_between (F := F) (x := 1) (y := exp (-exp z)) (l := 0) (u := 1) val_one h1 (by norm_num) (by norm_num) (by push_cast; linarith) (by push_cast; linarith)
  simpa [Act.comploglogF] using this

theorem two_thirds : ∃ e, val (lit 2 / lit 3 : F) = fin e ∧ 0 ≤ e ∧ e ≤ 1 := by
  obtain ⟨e, he, h1, h2⟩ := rnd_between (F := F) (r := 2 / 3) (a := 0) (b := 1) (by norm_num) (by norm_num) (by norm_num) (by norm_num)
  exact ⟨e, (div_fin lit_2 lit_3 (by norm_num)).trans he, by simpa using h1, by simpa using h2⟩

theorem scaled_ne_nan {z : F} (h : Number z) : val (lit 2 / lit 3 * z : F) ≠ nan := by
  obtain ⟨a, ha⟩ := h
  obtain ⟨e, he, _, _⟩ := two_thirds (F := F)
  rw [val_mul, he, ha]
  exact rnd_notNan _

theorem lecuntanh_range {z : F} (h : Number z) : Between (-2) 2 (Act.lecuntanhF z) := by
  obtain ⟨c, hc, hc1, hc2⟩ := rnd_between (F := F) (r := 17159 / 10000) (a := 1) (b := 2) (by norm_num) (by norm_num) (by norm_num) (by norm_num)
  have hl : val (lit (17159 / 10000) : F) = fin c := by
    rw [val_lit, ← hc]
    norm_num
  obtain ⟨t, ht, ht1, ht2⟩ := tanh_range (scaled_ne_nan h)
  push_cast at hc1 hc2
  have := mul_between (F := F) (l := -2) (u := 2) hl ht (by norm_num) (by norm_num) (by push_cast; nlinarith) (by push_cast; nlinarith)
  simpa [Act.lecuntanhF, Act.tanhF] using this

theorem hardtanh_range (z : F) : Between (-1) 1 (Act.hardtanhF z) := by
  unfold Between Act.hardtanhF
  rw [val_fmax, val_fmin, lit_m1, val_one]
  cases hz : val z with
  | nan => exact ⟨1, by simp [FV.max, FV.min, Le], by norm_num, by norm_num⟩
  | pinf => exact ⟨1, by simp [FV.max, FV.min, Le], by norm_num, by norm_num⟩
  | ninf => exact ⟨-1, by simp [FV.max, FV.min, Le], by norm_num, by norm_num⟩
  | fin a =>
    by_cases h1 : 1 ≤ a
    · exact ⟨1, by simp [FV.max, FV.min, Le, h1], by norm_num, by norm_num⟩
    · by_cases h2 : -1 ≤ a
      · exact ⟨a, by simp [FV.max, FV.min, Le, h1, h2], h2, by linarith⟩
      · exact ⟨-1, by simp [FV.max, FV.min, Le, h1, h2], by norm_num, by norm_num⟩

theorem relu_num {z : F} (h : Number z) : ∃ q, 0 ≤ q ∧ val (Act.reluF z) = fin q := by
  obtain ⟨a, ha⟩ := h
  unfold Act.reluF
  split
  · rename_i hle
    rw [le_iff, val_zero, ha] at hle
    exact ⟨a, hle, ha⟩
  · exact ⟨0, le_refl _, val_zero⟩

theorem absolute_num {z : F} (h : Number z) : ∃ q, 0 ≤ q ∧ val (Act.absoluteF z) = fin q := by
  obtain ⟨a, ha⟩ := h
  exact ⟨|a|, abs_nonneg a, by unfold Act.absoluteF; rw [val_fabs, ha]; rfl⟩

theorem fmax_zero {z : F} {a : ℝ} (h : val z = fin a) : val (fmax 0 z) = fin (Max.max 0 a) := by
  rw [val_fmax, val_zero, h]
  by_cases h1 : 0 ≤ a
  · simp [FV.max, Le, h1]
  · simp [FV.max, Le, h1, le_of_lt (not_le.1 h1)]

theorem sin_range {z : F} (h : Number z) : Between (-1) 1 (sin z) := by
  obtain ⟨a, ha⟩ := h
  have := val_sin z
  rw [ha] at this
  exact this

theorem cos_range {z : F} (h : Number z) : Between (-1) 1 (cos z) := by
  obtain ⟨a, ha⟩ := h
  have := val_cos z
  rw [ha] at this
  exact this

theorem fmax_add {z t : F} (h : Number z) (ht : Number t) : val (fmax 0 z + t) ≠ nan := by
  obtain ⟨a, ha⟩ := h
  obtain ⟨b, hb⟩ := ht
  rw [val_add, fmax_zero ha, hb]
  exact rnd_notNan _

theorem btw_num {a b : ℝ} {x : F} (h : Between a b x) : Number x := by
  obtain ⟨q, h, _⟩ := h
  exact ⟨q, h⟩

theorem fmax_add_num {z t : F} {a : ℝ} (ha : val z = fin a) (hl : |a| ≤ large / 2) (ht : Between (-1) 1 t) : Number (fmax 0 z + t) := by
  obtain ⟨b, hb, h1, h2⟩ := ht
  have hp : (2 : ℝ) ≤ large := by
    have h0 := int_le_large
    have : (2 : ℝ) ≤ 2 ^ 53 := by norm_num
    linarith
  obtain ⟨q, hq, _⟩ := (Ieee.rounding (F := F)).finite (Max.max 0 a + b) (by
    have hm : |Max.max 0 a| ≤ large / 2 := by
      rcases max_choice 0 a with h | h <;> rw [h]
      · rw [abs_zero]; linarith
      · exact hl
    have hb' : |b| ≤ 1 := abs_le.2 ⟨h1, h2⟩
    exact (abs_add_le _ _).trans (by linarith))
  exact ⟨q, by rw [val_add, fmax_zero ha, hb]; exact hq⟩

/-- `log` of a number at least 1 or of infinity is a non-negative number or infinity. -/
theorem log_ge_one {y : F} (hy : val y = pinf ∨ ∃ r, 1 ≤ r ∧ val y = fin r) : (val y = pinf ∧ val (log y) = pinf) ∨ ∃ q, 0 ≤ q ∧ val (log y) = fin q := by
  have hl := val_log y
  rcases hy with hy | ⟨r, hr, hy⟩ <;> rw [hy] at hl
  · exact .inl ⟨hy, hl⟩
  · obtain ⟨q, hq, _⟩ := hl.2.2.1 (by linarith)
    have := hl.2.2.2.2.1 hr
    rw [hq] at this
    exact .inr ⟨q, this, hq⟩

theorem smoothrelu_nonneg {z : F} (h : val z ≠ nan) : val (Act.smoothreluF z) = pinf ∨ ∃ q, 0 ≤ q ∧ val (Act.smoothreluF z) = fin q := by
  rcases log_ge_one (denom h) with ⟨_, h⟩ | h
  · exact .inl h
  · exact .inr h

theorem exp_over {z : F} (h : Le (fin 710) (val z)) : val (exp z) = pinf := by
  have he := val_exp z
  cases hz : val z with
  | nan => rw [hz] at h; exact (Le_nan h).elim
  | pinf => rw [hz] at he; exact he
  | ninf => rw [hz] at h; exact h.elim
  | fin a => rw [hz] at he h; exact he.2.1 h

theorem exp_num {z : F} (h : Le (val z) (fin 700)) : ∃ q, 0 ≤ q ∧ q ≤ large / 8 ∧ val (exp z) = fin q := by
  have he := val_exp z
  cases hz : val z with
  | nan => rw [hz] at h; exact (nan_Le h).elim
  | pinf => rw [hz] at h; exact h.elim
  | ninf => rw [hz] at he; exact ⟨0, le_refl _, by have := large_pos; linarith, he⟩
  | fin a =>
    rw [hz] at he h
    obtain ⟨q, h1, h2, h3⟩ := Le_fin he.1 (he.2.2.1 h)
    exact ⟨q, h2, h3, h1⟩

theorem one_add_num {z : F} (h : Le (val z) (fin 700)) : ∃ q, 1 ≤ q ∧ val (1 + exp z) = fin q := by
  obtain ⟨q, h0, h1, hq⟩ := exp_num h
  have hp := one_le_large
  have h2 := int_le_large
  have h3 : (2 : ℝ) ≤ 2 ^ 53 := by norm_num
  obtain ⟨r, hr, _⟩ := (Ieee.rounding (F := F)).finite (1 + q) (by rw [abs_of_nonneg (by linarith)]; linarith)
  rcases denom (x := z) (by intro hn; rw [hn] at h; exact nan_Le h) with hd | ⟨r', h1, hd⟩
  · rw [val_add, val_one, hq] at hd
    rw [show FV.add (Ieee.rnd F) (fin 1) (fin q) = fin r from hr] at hd
    cases hd
  · exact ⟨r', h1, hd⟩

theorem smoothrelu_num {z : F} (h : Le (val z) (fin 700)) : Number (Act.smoothreluF z) := by
  obtain ⟨q, h1, hq⟩ := one_add_num h
  rcases log_ge_one (.inr ⟨q, h1, hq⟩) with ⟨hh, _⟩ | ⟨q, _, h⟩
  · rw [hq] at hh; cases hh
  · exact ⟨q, h⟩

theorem smoothrelu_over {z : F} (h : Le (fin 710) (val z)) : val (Act.smoothreluF z) = pinf := by
  have h1 : val (1 + exp z) = pinf := by rw [val_add, val_one, exp_over h]; rfl
  have hl := val_log (1 + exp z)
  rw [h1] at hl
  exact hl

/-! ## Derivatives -/

/-- `rnd (1 + q)` is at least `q` for a number `q` of type `double`. -/
theorem quot_range {x : F} {q : ℝ} (hq0 : 0 ≤ q) (hq : val x = fin q) : Between 0 1 (x / (1 + x)) := by
  have hq' := rnd_val x q hq
  have hs : val (1 + x) = Ieee.rnd F (1 + q) := by rw [val_add, val_one, hq]; rfl
  have h1 : Le (fin 1) (Ieee.rnd F (1 + q)) := by rw [← rnd_1 (F := F)]; exact rnd_le (by linarith)
  have h2 : Le (fin q) (Ieee.rnd F (1 + q)) := by
    have := rnd_le (F := F) (show q ≤ 1 + q by linarith)
    rwa [hq'] at this
  cases hr : Ieee.rnd F (1 + q) with
  | nan => exact absurd hr (rnd_notNan _)
  | ninf => rw [hr] at h1; exact h1.elim
  | pinf =>
    have hd := val_div x (1 + x)
    rw [hq, hs, hr] at hd
    exact ⟨0, hd, le_refl _, zero_le_one⟩
  | fin r =>
    rw [hr] at h1 h2
    have h1 : 1 ≤ r := h1
    have h2 : q ≤ r := h2
    obtain ⟨e, he, h3, h4⟩ := rnd_between (F := F) (r := q / r) (a := 0) (b := 1) (by norm_num) (by norm_num) (by push_cast; positivity) (by push_cast; exact (div_le_one (by linarith)).2 h2)
    exact ⟨e, (div_fin hq (hs.trans hr) (by linarith)).trans he, by simpa using h3, by simpa using h4⟩

theorem quot_nan {x : F} (h : val x = pinf) : val (x / (1 + x)) = nan := by
  have hs : val (1 + x) = pinf := by rw [val_add, val_one, h]; rfl
  have hd := val_div x (1 + x)
  rw [h, hs] at hd
  exact hd

/-- A number in [0, k] over a number at least 1 or infinity is in [0, k]. -/
theorem div_range {x y : F} {k : ℤ} (hk0 : 0 ≤ k) (hk : k ≤ 100) (hx : Between 0 k x) (hy : val y = pinf ∨ ∃ r, 1 ≤ r ∧ val y = fin r) : Between 0 k (x / y) := by
  obtain ⟨a, ha, h0, h1⟩ := hx
  rcases div_ok ha hy with ⟨_, h⟩ | ⟨r, hr, _, h⟩
  · exact ⟨0, h, le_refl _, by exact_mod_cast hk0⟩
  · obtain ⟨q, hq, h2, h3⟩ := rnd_between (F := F) (r := a / r) (a := 0) (b := k) (by norm_num) (by rw [abs_of_nonneg hk0]; omega) (by push_cast; positivity) ((div_le_self h0 hr).trans h1)
    exact ⟨q, h.trans hq, by simpa using h2, h3⟩

theorem sigmoidG_range {z : F} (hn : val z ≠ nan) (h : val (exp (-z)) ≠ pinf) : Between 0 1 (Act.sigmoidG z) := by
  rcases exp_cases (neg_ne_nan hn) with h' | ⟨q, hq0, hq⟩
  · exact absurd h' h
  · have h1 := quot_range hq0 hq
    have := div_range (k := 1) (by norm_num) (by norm_num) (by simpa using h1) (denom (neg_ne_nan hn))
    simpa [Act.sigmoidG] using this

theorem sigmoidG_nan {z : F} (h : val (exp (-z)) = pinf) : NaN (Act.sigmoidG z) := div_nan (.inl (quot_nan h))

theorem square_range {x : F} {a : ℝ} (h : val x = fin a) : val (x * x) = pinf ∨ ∃ q, 0 ≤ q ∧ val (x * x) = fin q := by
  have h1 : val (x * x) = Ieee.rnd F (a * a) := by rw [val_mul, h]; rfl
  have h2 : Le (fin 0) (Ieee.rnd F (a * a)) := by rw [← rnd_0 (F := F)]; exact rnd_le (mul_self_nonneg a)
  rw [h1]
  cases hr : Ieee.rnd F (a * a) with
  | nan => exact absurd hr (rnd_notNan _)
  | pinf => exact .inl rfl
  | ninf => rw [hr] at h2; exact h2.elim
  | fin q => rw [hr] at h2; exact .inr ⟨q, h2, rfl⟩

theorem one_add_range {x : F} (h : val x = pinf ∨ ∃ q, 0 ≤ q ∧ val x = fin q) : val (1 + x) = pinf ∨ ∃ r, 1 ≤ r ∧ val (1 + x) = fin r := by
  rw [val_add, val_one]
  rcases h with h | ⟨q, hq, h⟩ <;> rw [h]
  · exact .inl rfl
  · show Ieee.rnd F (1 + q) = pinf ∨ _
    have h1 : Le (fin 1) (Ieee.rnd F (1 + q)) := by rw [← rnd_1 (F := F)]; exact rnd_le (by linarith)
    cases hr : Ieee.rnd F (1 + q) with
    | nan => exact absurd hr (rnd_notNan _)
    | pinf => exact .inl rfl
    | ninf => rw [hr] at h1; exact h1.elim
    | fin r => rw [hr] at h1; exact .inr ⟨r, h1, hr⟩

theorem arctanG_range {z : F} (h : Number z) : Between 0 1 (Act.arctanG z) := by
  obtain ⟨a, ha⟩ := h
  have := div_between (F := F) (c := 1) (k := 1) (by rw [val_one]; simp) (by norm_num) (by norm_num) (one_add_range (square_range ha))
  simpa [Act.arctanG] using this

theorem one_sub_square {t : F} (h : Between (-1) 1 t) : Between 0 1 (1 - t * t) := by
  obtain ⟨a, ha, h1, h2⟩ := h
  obtain ⟨q, hq, h3, h4⟩ := mul_between (F := F) (l := 0) (u := 1) ha ha (by norm_num) (by norm_num) (by push_cast; nlinarith) (by push_cast; nlinarith)
  push_cast at h3 h4
  have := sub_between (F := F) (x := 1) (y := t * t) (l := 0) (u := 1) val_one hq (by norm_num) (by norm_num) (by push_cast; linarith) (by push_cast; linarith)
  simpa using this

theorem tanhG_range {z : F} (h : val z ≠ nan) : Between 0 1 (Act.tanhG z) := one_sub_square (tanh_range h)

theorem bipolarsigmoidG_range {z : F} (h : val z ≠ nan) : Between 0 1 (Act.bipolarsigmoidG z) := by
  have h1 := one_sub_square (bipolarsigmoid_range h)
  have := div_range (k := 1) (y := (lit 2 : F)) (by norm_num) (by norm_num) (by simpa using h1) (.inr ⟨2, by norm_num, lit_2⟩)
  simpa [Act.bipolarsigmoidG] using this

theorem comploglogG_num {z : F} (hn : val z ≠ nan) (h : val (exp z) ≠ pinf) : ∃ q, 0 ≤ q ∧ val (Act.comploglogG z) = fin q := by
  rcases exp_cases hn with h' | ⟨q, hq0, hq⟩
  · exact absurd h' h
  · obtain ⟨e, he, h1, h2⟩ := exp_nonpos (neg_exp_nonpos hn)
    have h3 : val (Act.comploglogG z) = Ieee.rnd F (q * e) := by unfold Act.comploglogG; rw [val_mul, hq, he]; rfl
    have h4 : Le (fin 0) (Ieee.rnd F (q * e)) := by rw [← rnd_0 (F := F)]; exact rnd_le (mul_nonneg hq0 h1)
    have h5 := rnd_le (F := F) (show q * e ≤ q from mul_le_of_le_one_right hq0 h2)
    rw [rnd_val _ q hq] at h5
    obtain ⟨r, hr, h6, _⟩ := Le_fin h4 h5
    exact ⟨r, h6, h3.trans hr⟩

theorem comploglogG_nan {z : F} (h : val (exp z) = pinf) : NaN (Act.comploglogG z) := by
  have h1 : val (-exp z) = ninf := by rw [val_neg, h]; rfl
  have h2 : val (exp (-exp z)) = fin 0 := by
    have := val_exp (-exp z)
    rw [h1] at this
    exact this
  unfold Act.comploglogG Spec.NaN
  rw [val_mul, h, h2]
  simp [FV.mul, infSign]

theorem smoothreluG_range {z : F} (hn : val z ≠ nan) (h : val (exp z) ≠ pinf) : Between 0 1 (Act.smoothreluG z) := by
  rcases exp_cases hn with h' | ⟨q, hq0, hq⟩
  · exact absurd h' h
  · exact quot_range hq0 hq

theorem smoothreluG_nan {z : F} (h : val (exp z) = pinf) : NaN (Act.smoothreluG z) := quot_nan h

/-- `exp(x)` is at least 1 for `x` at least 0. -/
theorem exp_ge {x : F} (h : Le (fin 0) (val x)) : Le (fin 1) (val (exp x)) := by
  have he := val_exp x
  cases hx : val x with
  | nan => rw [hx] at h; exact (Le_nan h).elim
  | pinf => rw [hx] at he; rw [show val (exp x) = pinf from he]; trivial
  | ninf => rw [hx] at h; exact h.elim
  | fin a => rw [hx] at he h; exact he.2.2.2.2.2.2.2.1 h

theorem add_ge {x y : F} (h1 : Le (fin 1) (val x)) (h2 : Le (fin 0) (val y)) : val (x + y) = pinf ∨ ∃ r, 1 ≤ r ∧ val (x + y) = fin r := by
  rw [val_add]
  cases hx : val x with
  | nan => rw [hx] at h1; exact (Le_nan h1).elim
  | ninf => rw [hx] at h1; exact h1.elim
  | pinf =>
    cases hy : val y with
    | nan => rw [hy] at h2; exact (Le_nan h2).elim
    | ninf => rw [hy] at h2; exact h2.elim
    | pinf => exact .inl rfl
    | fin b => exact .inl rfl
  | fin a =>
    cases hy : val y with
    | nan => rw [hy] at h2; exact (Le_nan h2).elim
    | ninf => rw [hy] at h2; exact h2.elim
    | pinf => exact .inl rfl
    | fin b =>
      rw [hx] at h1
      rw [hy] at h2
      show Ieee.rnd F (a + b) = pinf ∨ ∃ r, 1 ≤ r ∧ Ieee.rnd F (a + b) = fin r
      have h1 : 1 ≤ a := h1
      have h2 : 0 ≤ b := h2
      have h3 : Le (fin 1) (Ieee.rnd F (a + b)) := by rw [← rnd_1 (F := F)]; exact rnd_le (by linarith)
      cases hr : Ieee.rnd F (a + b) with
      | nan => exact absurd hr (rnd_notNan _)
      | pinf => exact .inl rfl
      | ninf => rw [hr] at h3; exact h3.elim
      | fin r => rw [hr] at h3; exact .inr ⟨r, h3, rfl⟩

theorem add_comm_val (x y : F) : val (x + y) = val (y + x) := by
  rw [val_add, val_add]
  cases val x <;> cases val y <;> simp [FV.add, add_comm]

theorem exp_sum {x : F} (h : val x ≠ nan) : val (exp x + exp (-x)) = pinf ∨ ∃ r, 1 ≤ r ∧ val (exp x + exp (-x)) = fin r := by
  have hc : Le (fin 0) (val x) ∨ Le (fin 0) (val (-x)) := by
    rw [val_neg]
    cases hx : val x with
    | nan => exact absurd hx h
    | pinf => exact .inl trivial
    | ninf => exact .inr trivial
    | fin a =>
      rcases le_total 0 a with h | h
      · exact .inl h
      · exact .inr (by show 0 ≤ -a; linarith)
  rcases hc with hc | hc
  · exact add_ge (exp_ge hc) (exp_nonneg (neg_ne_nan h))
  · rw [add_comm_val]
    exact add_ge (exp_ge hc) (exp_nonneg h)

theorem lecuntanhG_range {z : F} (h : Number z) : Between 0 8 (Act.lecuntanhG z) := by
  obtain ⟨c, hc, hc1, hc2⟩ := rnd_between (F := F) (r := 114393333 / 100000000) (a := 1) (b := 2) (by norm_num) (by norm_num) (by norm_num) (by norm_num)
  have hl : val (lit (114393333 / 100000000) : F) = fin c := by
    rw [val_lit, ← hc]
    norm_num
  push_cast at hc1 hc2
  have h4 := mul_between (F := F) (l := 0) (u := 8) hl lit_4 (by norm_num) (by norm_num) (by push_cast; linarith) (by push_cast; linarith)
  have hs := exp_sum (scaled_ne_nan h)
  have h5 := div_range (k := 8) (by norm_num) (by norm_num) (by simpa using h4) hs
  have h6 := div_range (by norm_num) (by norm_num) h5 hs
  simpa [Act.lecuntanhG] using h6

theorem reluG_range (z : F) : val (Act.reluG z) = fin 0 ∨ val (Act.reluG z) = fin 1 := by
  unfold Act.reluG; split
  · exact .inr val_one
  · exact .inl val_zero

theorem hardtanhG_range (z : F) : val (Act.hardtanhG z) = fin 0 ∨ val (Act.hardtanhG z) = fin 1 := by
  unfold Act.hardtanhG; split
  · exact .inr val_one
  · exact .inl val_zero

theorem absoluteG_range (z : F) : val (Act.absoluteG z) = fin (-1) ∨ val (Act.absoluteG z) = fin 1 := by
  unfold Act.absoluteG; split
  · exact .inl lit_m1
  · exact .inr val_one

theorem relucosG_range {z : F} (h : Number z) : Between (-1) 2 (Act.relucosG z) := by
  obtain ⟨s, hs, h1, h2⟩ := sin_range h
  unfold Act.relucosG
  split
  · have := sub_between (F := F) (l := -1) (u := 2) val_one hs (by norm_num) (by norm_num) (by push_cast; linarith) (by push_cast; linarith)
    simpa using this
  · exact ⟨-s, neg_fin hs, by linarith, by linarith⟩

theorem add_between {x y : F} {a b : ℝ} {l u : ℤ} (hx : val x = fin a) (hy : val y = fin b) (hl : |l| ≤ 2 ^ 53) (hu : |u| ≤ 2 ^ 53) (h1 : l ≤ a + b) (h2 : a + b ≤ u) :
    Between l u (x + y) := by
  unfold Between
  rw [val_add, hx, hy]
  exact rnd_between hl hu h1 h2

theorem relusinG_range {z : F} (h : Number z) : Between (-1) 2 (Act.relusinG z) := by
  obtain ⟨s, hs, h1, h2⟩ := cos_range h
  unfold Act.relusinG
  split
  · have := add_between (F := F) (l := -1) (u := 2) val_one hs (by norm_num) (by norm_num) (by push_cast; linarith) (by push_cast; linarith)
    simpa using this
  · exact ⟨s, hs, by linarith, by linarith⟩

/-! ## The theorems -/

/-- The value of every activation function is a number in its range for every pre-activation that is a number, with two exceptions: `smoothrelu` may overflow to infinity (it does from 710 on,
although it is then practically the identity) and `relucos`, `relusin` are only shown to be numbers up to `2 ^ 1022`. No activation function turns a number into NaN. -/
theorem C72_values (z : F) (h : Number z) :
    Number (Act.identityF z) ∧ Between 0 1 (Act.sigmoidF z) ∧ Between (-2) 2 (Act.arctanF z) ∧ Between (-1) 1 (Act.tanhF z) ∧ Between (-1) 1 (Act.bipolarsigmoidF z) ∧
    Between 0 1 (Act.comploglogF z) ∧ Between (-2) 2 (Act.lecuntanhF z) ∧ Between (-1) 1 (Act.hardtanhF z) ∧ (∃ q, 0 ≤ q ∧ val (Act.absoluteF z) = fin q) ∧
    (∃ q, 0 ≤ q ∧ val (Act.reluF z) = fin q) ∧ ¬ NaN (Act.relucosF z) ∧ ¬ NaN (Act.relusinF z) ∧ ¬ NaN (Act.smoothreluF z) ∧
    (∀ a, val z = fin a → |a| ≤ large / 2 → Number (Act.relucosF z) ∧ Number (Act.relusinF z)) ∧
    (∀ a, val z = fin a → a ≤ 700 → Number (Act.smoothreluF z)) ∧ (∀ a, val z = fin a → 710 ≤ a → val (Act.smoothreluF z) = pinf) := by
  have hn := num_ne_nan h
  refine ⟨h, sigmoid_range hn, arctan_range hn, tanh_range hn, bipolarsigmoid_range hn, comploglog_range hn, lecuntanh_range h, hardtanh_range z, absolute_num h, relu_num h,
    fmax_add h (btw_num (cos_range h)), fmax_add h (btw_num (sin_range h)), ?_, fun a ha hl => ?_, fun a ha hl => smoothrelu_num (by rw [ha]; exact hl), fun a ha hl => smoothrelu_over (by rw [ha]; exact hl)⟩
  · intro hh
    rcases smoothrelu_nonneg hn with h' | ⟨q, _, h'⟩ <;> rw [Spec.NaN, h'] at hh <;> cases hh
  · exact ⟨fmax_add_num ha hl (cos_range h), fmax_add_num ha hl (sin_range h)⟩

/-- Derivatives that are a number in their range for every pre-activation that is a number. -/
theorem C72_derivatives (z : F) (h : Number z) :
    val (Act.identityG z) = fin 1 ∧ Between 0 1 (Act.arctanG z) ∧ Between 0 1 (Act.tanhG z) ∧ Between 0 1 (Act.bipolarsigmoidG z) ∧ Between 0 8 (Act.lecuntanhG z) ∧
    (val (Act.hardtanhG z) = fin 0 ∨ val (Act.hardtanhG z) = fin 1) ∧ (val (Act.absoluteG z) = fin (-1) ∨ val (Act.absoluteG z) = fin 1) ∧
    (val (Act.reluG z) = fin 0 ∨ val (Act.reluG z) = fin 1) ∧ Between (-1) 2 (Act.relucosG z) ∧ Between (-1) 2 (Act.relusinG z) :=
  have hn := num_ne_nan h
  ⟨val_one, arctanG_range h, tanhG_range hn, bipolarsigmoidG_range hn, lecuntanhG_range h, hardtanhG_range z, absoluteG_range z, reluG_range z, relucosG_range h, relusinG_range h⟩

/-- The other three derivatives are NaN exactly where the exponential in them overflows: `sigmoid` for -z, `comploglog` and `smoothrelu` for z; elsewhere they are non-negative numbers. -/
theorem C72_derivatives_overflow (z : F) (h : Number z) :
    (NaN (Act.sigmoidG z) ↔ val (exp (-z)) = pinf) ∧ (NaN (Act.comploglogG z) ↔ val (exp z) = pinf) ∧ (NaN (Act.smoothreluG z) ↔ val (exp z) = pinf) ∧
    (¬ NaN (Act.sigmoidG z) → Between 0 1 (Act.sigmoidG z)) ∧ (¬ NaN (Act.comploglogG z) → ∃ q, 0 ≤ q ∧ val (Act.comploglogG z) = fin q) ∧
    (¬ NaN (Act.smoothreluG z) → Between 0 1 (Act.smoothreluG z)) := by
  have hn := num_ne_nan h
  have no : ∀ {x : F}, Number x → ¬ NaN x := fun h => num_ne_nan h
  refine ⟨⟨fun h' => ?_, sigmoidG_nan⟩, ⟨fun h' => ?_, comploglogG_nan⟩, ⟨fun h' => ?_, smoothreluG_nan⟩, fun h' => ?_, fun h' => ?_, fun h' => ?_⟩
  · by_contra hc
    exact no (btw_num (sigmoidG_range hn hc)) h'
  · by_contra hc
    obtain ⟨q, _, hq⟩ := comploglogG_num hn hc
    exact no ⟨q, hq⟩ h'
  · by_contra hc
    exact no (btw_num (smoothreluG_range hn hc)) h'
  · exact sigmoidG_range hn (fun hc => h' (sigmoidG_nan hc))
  · exact comploglogG_num hn (fun hc => h' (comploglogG_nan hc))
  · exact smoothreluG_range hn (fun hc => h' (smoothreluG_nan hc))

/-- Where that is: the derivative of `sigmoid`, practically 0 there, is NaN for every z up to -710; those of `comploglog` (practically 0) and `smoothrelu` (practically 1) are NaN for every z from 710 on. -/
theorem C72_derivatives_refuted (z : F) (a : ℝ) (h : val z = fin a) :
    (a ≤ -710 → NaN (Act.sigmoidG z)) ∧ (710 ≤ a → NaN (Act.comploglogG z) ∧ NaN (Act.smoothreluG z)) ∧
    (-700 ≤ a → Between 0 1 (Act.sigmoidG z)) ∧ (a ≤ 700 → Number (Act.comploglogG z) ∧ Between 0 1 (Act.smoothreluG z)) := by
  have hn : val z ≠ nan := by rw [h]; simp
  have hneg := neg_fin h
  have fin_ne : ∀ {x : F}, Le (val x) (fin 700) → val (exp x) ≠ pinf := fun hx hc => by
    obtain ⟨q, _, _, hq⟩ := exp_num hx
    rw [hq] at hc
    cases hc
  refine ⟨fun ha => sigmoidG_nan (exp_over (by rw [hneg]; show (710 : ℝ) ≤ -a; linarith)), fun ha => ?_, fun ha => sigmoidG_range hn (fin_ne (by rw [hneg]; show -a ≤ 700; linarith)), fun ha => ?_⟩
  · have := exp_over (z := z) (by rw [h]; exact ha)
    exact ⟨comploglogG_nan this, smoothreluG_nan this⟩
  · have := fin_ne (x := z) (by rw [h]; exact ha)
    obtain ⟨q, _, hq⟩ := comploglogG_num hn this
    exact ⟨⟨q, hq⟩, smoothreluG_range hn this⟩

/-- What becomes of a NaN: `relu` maps it to 0 and `hardtanh` to 1; all other activation functions keep it. -/
theorem C72_nan (z : F) (h : NaN z) :
    val (Act.reluF z) = fin 0 ∧ val (Act.hardtanhF z) = fin 1 ∧
    NaN (Act.identityF z) ∧ NaN (Act.sigmoidF z) ∧ NaN (Act.arctanF z) ∧ NaN (Act.tanhF z) ∧ NaN (Act.bipolarsigmoidF z) ∧ NaN (Act.comploglogF z) ∧ NaN (Act.lecuntanhF z) ∧
    NaN (Act.absoluteF z) ∧ NaN (Act.relucosF z) ∧ NaN (Act.relusinF z) ∧ NaN (Act.smoothreluF z) := by
  have hz : val z = nan := h
  have hexp := exp_nan hz
  have hexpn := exp_nan (neg_nan hz)
  have htanh : ∀ {x : F}, val x = nan → val (tanh x) = nan := fun {x} hx => by
    have := val_tanh x
    rw [hx] at this
    exact this
  refine ⟨?_, ?_, h, div_nan (.inr (add_nan (.inr hexpn))), ?_, htanh hz, sub_nan (.inl (div_nan (.inr (add_nan (.inr hexpn))))), sub_nan (.inr (exp_nan (neg_nan hexp))),
    mul_nan (.inr (htanh (mul_nan (.inr hz)))), ?_, add_nan (.inr ?_), add_nan (.inr ?_), log_nan (add_nan (.inr hexp))⟩
  · unfold Act.reluF
    rw [if_neg (by rw [le_iff, hz]; exact Le_nan)]
    exact val_zero
  · unfold Act.hardtanhF
    rw [val_fmax, val_fmin, lit_m1, val_one, hz]
    simp [FV.max, FV.min, Le]
  · have := val_atan z
    rw [hz] at this
    exact this
  · show val (fabs z) = nan
    rw [val_fabs, hz]
    rfl
  · have := val_cos z
    rw [hz] at this
    exact this
  · have := val_sin z
    rw [hz] at this
    exact this

end

theorem Witness.val_lit_int (n : ℤ) (h : |n| ≤ 2 ^ 53) : val (lit n : Witness.T) = fin n := by
  rw [val_lit]
  simpa using rnd_int (F := Witness.T) n h

/-- The numbers -800 and 800 of the witness: the hypotheses are met and the derivatives of `sigmoid`, `comploglog` are NaN there. -/
example : NaN (Act.sigmoidG (lit (-800 : ℤ) : Witness.T)) ∧ NaN (Act.comploglogG (lit (800 : ℤ) : Witness.T)) ∧ Between 0 1 (Act.sigmoidG (lit (800 : ℤ) : Witness.T)) := by
  have h1 := Witness.val_lit_int (-800) (by norm_num)
  have h2 := Witness.val_lit_int 800 (by norm_num)
  exact ⟨(C72_derivatives_refuted _ _ h1).1 (by norm_num), ((C72_derivatives_refuted _ _ h2).2.1 (by norm_num)).1, (C72_derivatives_refuted _ _ h2).2.2.1 (by norm_num)⟩

end Nnet.NN.Flt
