import Verif.NN.RoundSpec
import Verif.NN.FloatLemmas
/-! # Rounding errors of the operations -/
namespace Nnet.NN.Flt
open FV B64 Spec
noncomputable section

theorem u_pos : (0 : ℝ) < u := by unfold u; positivity
theorem tiny_pos : (0 : ℝ) < tiny := two_zpow_pos _

theorem r64_near (x : ℝ) : |r64 x - x| ≤ u * |x| + tiny := by
  have hu := u_pos
  have ht := tiny_pos
  by_cases h0 : x = 0
  · rw [h0, r64_zero]; simp [ht.le]
  have hpos : 0 < |x| := abs_pos.2 h0
  have hq := two_zpow_pos (expo x)
  have h2 : r64 x - x = (roundEven (x / 2 ^ expo x) - x / 2 ^ expo x) * 2 ^ expo x := by
    rw [sub_mul, div_mul_cancel₀ _ hq.ne']
    rfl
  rw [h2, abs_mul, abs_of_pos hq]
  have h3 := mul_le_mul_of_nonneg_right (roundEven_near (x / 2 ^ expo x)) hq.le
  refine h3.trans ?_
  by_cases he : Int.log 2 |x| - 52 ≤ -1074
  · have he2 : expo x = -1074 := by unfold expo; omega
    rw [he2]
    have : (0 : ℝ) ≤ u * |x| := by positivity
    unfold tiny
    have := two_zpow_pos (-1074)
    linarith
  · have he2 : expo x = Int.log 2 |x| - 52 := by unfold expo; omega
    have h4 : 1 / 2 * (2 : ℝ) ^ expo x = u * 2 ^ Int.log 2 |x| := by
      rw [he2, zpow_sub₀ (by norm_num), u]
      norm_num
      ring
    rw [h4]
    have := mul_le_mul_of_nonneg_left (log_le hpos) hu.le
    linarith

/-- Sums of numbers do not underflow. -/
theorem r64_near_grid {x : ℝ} (h : Grid x) : |r64 x - x| ≤ u * |x| := by
  have hu := u_pos
  by_cases h0 : x = 0
  · rw [h0, r64_zero]; simp
  have hpos : 0 < |x| := abs_pos.2 h0
  have hq := two_zpow_pos (expo x)
  by_cases he : Int.log 2 |x| - 52 ≤ -1074
  · have he2 : expo x = -1074 := by unfold expo; omega
    obtain ⟨n, hn⟩ := h
    have : r64 x = x := by
      unfold r64
      rw [he2]
      conv_lhs => rw [hn]
      rw [mul_div_assoc, div_self (two_zpow_pos _).ne', mul_one, roundEven_int, ← hn]
    rw [this, sub_self, abs_zero]
    positivity
  · have h2 : r64 x - x = (roundEven (x / 2 ^ expo x) - x / 2 ^ expo x) * 2 ^ expo x := by
      rw [sub_mul, div_mul_cancel₀ _ hq.ne']
      rfl
    rw [h2, abs_mul, abs_of_pos hq]
    have h3 := mul_le_mul_of_nonneg_right (roundEven_near (x / 2 ^ expo x)) hq.le
    refine h3.trans ?_
    have he2 : expo x = Int.log 2 |x| - 52 := by unfold expo; omega
    have h4 : 1 / 2 * (2 : ℝ) ^ expo x = u * 2 ^ Int.log 2 |x| := by
      rw [he2, zpow_sub₀ (by norm_num), u]
      norm_num
      ring
    rw [h4]
    exact mul_le_mul_of_nonneg_left (log_le hpos) hu.le

variable {P : Platform}

theorem Spec.App.B_nonneg {e : Est} {x : Double P} {r : ℝ} (h : App e x r) : 0 ≤ e.B := by
  obtain ⟨q, _, h, _⟩ := h
  exact (abs_nonneg q).trans h
theorem Spec.App.E_nonneg {e : Est} {x : Double P} {r : ℝ} (h : App e x r) : 0 ≤ e.E := by
  obtain ⟨q, _, _, _, h⟩ := h
  exact (abs_nonneg _).trans h

theorem Spec.App.mono {e f : Est} {x : Double P} {r : ℝ} (h : App e x r) (hB : e.B ≤ f.B) (hE : e.E ≤ f.E) : App f x r := by
  obtain ⟨q, h1, h2, h3, h4⟩ := h
  exact ⟨q, h1, h2.trans hB, h3.trans hB, h4.trans hE⟩

theorem mul_diff {a b c d A B E F : ℝ} (ha : |a| ≤ A) (hd : |d| ≤ B) (h1 : |a - c| ≤ E) (h2 : |b - d| ≤ F) : |a * b - c * d| ≤ A * F + B * E := by
  have e : a * b - c * d = a * (b - d) + d * (a - c) := by ring
  rw [e]
  refine (abs_add_le _ _).trans ?_
  rw [abs_mul, abs_mul]
  have := mul_le_mul ha h2 (abs_nonneg _) ((abs_nonneg _).trans ha)
  have := mul_le_mul hd h1 (abs_nonneg _) ((abs_nonneg _).trans hd)
  linarith

theorem app_mul {e f : Est} {x y : Double P} {r s : ℝ} (hx : App e x r) (hy : App f y s) (hl : e.B * f.B ≤ large) : App (e.mul f) (x * y) (r * s) := by
  obtain ⟨p, hp, p1, p2, p3⟩ := hx
  obtain ⟨q, hq, q1, q2, q3⟩ := hy
  have he : 0 ≤ e.B := (abs_nonneg _).trans p1
  have hm : |p * q| ≤ e.B * f.B := by rw [abs_mul]; exact mul_le_mul p1 q1 (abs_nonneg _) he
  have hm2 : |r * s| ≤ e.B * f.B := by rw [abs_mul]; exact mul_le_mul p2 q2 (abs_nonneg _) he
  have hd := mul_diff p1 q2 p3 q3
  have h0 := (abs_nonneg _).trans hm
  refine ⟨r64 (p * q), ?_, ?_, ?_, ?_⟩
  · show FV.mul rnd x.v y.v = _
    rw [hp, hq]
    exact rnd_of_le (hm.trans hl)
  · have := r64_double (p * q)
    simp only [Est.mul]
    linarith
  · simp only [Est.mul]; linarith
  · have h1 := r64_near (p * q)
    have h2 := abs_add_le (r64 (p * q) - p * q) (p * q - r * s)
    rw [sub_add_sub_cancel] at h2
    have h3 := mul_le_mul_of_nonneg_left hm u_pos.le
    simp only [Est.mul]
    linarith

theorem app_addR {e f : Est} {p q r s : ℝ} (dp : IsDouble (fin p)) (dq : IsDouble (fin q)) (p1 : |p| ≤ e.B) (q1 : |q| ≤ f.B) (p2 : |r| ≤ e.B) (q2 : |s| ≤ f.B) (p3 : |p - r| ≤ e.E) (q3 : |q - s| ≤ f.E)
    (hl : e.B + f.B ≤ large) : rnd (p + q) = fin (r64 (p + q)) ∧ |r64 (p + q)| ≤ (e.add f).B ∧ |r + s| ≤ (e.add f).B ∧ |r64 (p + q) - (r + s)| ≤ (e.add f).E := by
  have hm : |p + q| ≤ e.B + f.B := (abs_add_le _ _).trans (add_le_add p1 q1)
  have hm2 : |r + s| ≤ e.B + f.B := (abs_add_le _ _).trans (add_le_add p2 q2)
  have h0 := (abs_nonneg _).trans hm
  simp only [Est.add]
  refine ⟨rnd_of_le (hm.trans hl), ?_, by linarith, ?_⟩
  · have := r64_double (p + q)
    linarith
  · have h1 := r64_near_grid ((isDouble_grid dp).add (isDouble_grid dq))
    have h2 := abs_add_le (r64 (p + q) - (p + q)) ((p + q) - (r + s))
    rw [sub_add_sub_cancel] at h2
    have h3 := mul_le_mul_of_nonneg_left hm u_pos.le
    have h4 : |p + q - (r + s)| ≤ e.E + f.E := by
      rw [show p + q - (r + s) = (p - r) + (q - s) by ring]
      exact (abs_add_le _ _).trans (add_le_add p3 q3)
    linarith

theorem double_of {x : Double P} {p : ℝ} (h : x.v = fin p) : IsDouble (fin p) := h ▸ x.ok

theorem app_add {e f : Est} {x y : Double P} {r s : ℝ} (hx : App e x r) (hy : App f y s) (hl : e.B + f.B ≤ large) : App (e.add f) (x + y) (r + s) := by
  obtain ⟨p, hp, p1, p2, p3⟩ := hx
  obtain ⟨q, hq, q1, q2, q3⟩ := hy
  obtain ⟨a, b, c, d⟩ := app_addR (double_of hp) (double_of hq) p1 q1 p2 q2 p3 q3 hl
  refine ⟨_, ?_, b, c, d⟩
  show FV.add rnd x.v y.v = _
  rw [hp, hq]
  exact a

theorem app_sub {e f : Est} {x y : Double P} {r s : ℝ} (hx : App e x r) (hy : App f y s) (hl : e.B + f.B ≤ large) : App (e.add f) (x - y) (r - s) := by
  obtain ⟨p, hp, p1, p2, p3⟩ := hx
  obtain ⟨q, hq, q1, q2, q3⟩ := hy
  obtain ⟨a, b, c, d⟩ := app_addR (e := e) (f := f) (q := -q) (s := -s) (double_of hp) (isDouble_neg (double_of hq)) p1 (by rwa [abs_neg]) p2 (by rwa [abs_neg]) p3
    (by rw [show -q - -s = -(q - s) by ring, abs_neg]; exact q3) hl
  refine ⟨_, ?_, b, by rw [sub_eq_add_neg]; exact c, by rw [sub_eq_add_neg r s]; exact d⟩
  show FV.add rnd x.v y.v.neg = _
  rw [hp, hq]
  exact a

theorem app_divn {e : Est} {x : Double P} {r : ℝ} {n : Nat} (hx : App e x r) (h1 : 1 ≤ n) (h2 : n ≤ 2 ^ 53) (hl : e.B ≤ large) : App e.divn (x / Arith.lit (n : ℚ)) (r / n) := by
  obtain ⟨p, hp, p1, p2, p3⟩ := hx
  have hn : rnd ((n : ℚ) : ℝ) = fin n := by
    have := rounding.int n (by rw [abs_of_nonneg (by positivity)]; exact_mod_cast h2)
    simpa using this
  have hn1 : (1 : ℝ) ≤ n := by exact_mod_cast h1
  have hd : ∀ {t B : ℝ}, |t| ≤ B → |t / n| ≤ B := fun {t B} h => by
    rw [abs_div, abs_of_pos (by linarith : (0 : ℝ) < n)]
    exact (div_le_self (abs_nonneg t) hn1).trans h
  have hm := hd p1
  have h0 := (abs_nonneg _).trans hm
  refine ⟨r64 (p / n), ?_, ?_, ?_, ?_⟩
  · have h := (ieee P).val_div x (Arith.lit (n : ℚ))
    have e1 : (ieee P).val x = fin p := hp
    have e2 : (ieee P).val (Arith.lit (n : ℚ) : Double P) = fin n := hn
    rw [e1, e2] at h
    simp only [IsDiv] at h
    rw [if_neg (by linarith)] at h
    exact h.trans (rnd_of_le (hm.trans hl))
  · have := r64_double (p / n)
    simp only [Est.divn]
    linarith
  · have := hd p2
    simp only [Est.divn]
    linarith
  · have h1 := r64_near (p / n)
    have h2 := abs_add_le (r64 (p / n) - p / n) (p / n - r / n)
    rw [sub_add_sub_cancel] at h2
    have h3 := mul_le_mul_of_nonneg_left hm u_pos.le
    have h4 : |p / n - r / n| ≤ e.E := by rw [← sub_div]; exact hd p3
    simp only [Est.divn]
    linarith

/-! ## Inner products -/

/-- The exact sum of the products a plan uses. -/
def exactSum (l : List (FV × FV)) (is : List Nat) : ℝ :=
  (is.map fun i => match l.getD i (fin 0, fin 0) with
    | (fin a, fin b) => a * b
    | _ => 0).sum

theorem eval_error (l : List (FV × FV)) {B : ℝ} (hB0 : 0 ≤ B) : ∀ p : Plan, (∀ i ∈ p.leaves, ∃ a b, l.getD i (fin 0, fin 0) = (fin a, fin b) ∧ |a * b| ≤ B) → p.leaves.length < 2 ^ 50 →
    p.leaves.length * B ≤ sumMax → ∃ r, p.eval l = fin r ∧
      |r - exactSum l p.leaves| ≤ ((1 + u) ^ p.leaves.length - 1) * (p.leaves.length * B) + p.leaves.length * (1 + u) ^ p.leaves.length * tiny ∧ |exactSum l p.leaves| ≤ p.leaves.length * B
  | .zero, _, _, _ => ⟨0, rfl, by simp [Plan.leaves, exactSum], by simp [Plan.leaves, exactSum]⟩
  | .prod i, h, _, hs => by
    obtain ⟨a, b, h1, h2⟩ := h i (by simp [Plan.leaves])
    simp only [Plan.eval, h1]
    have hs' : B ≤ sumMax := by simpa [Plan.leaves] using hs
    have hl := four_sumMax
    have hp := sumMax_pos
    have he : exactSum l [i] = a * b := by simp only [exactSum, List.map_cons, List.map_nil, List.sum_cons, List.sum_nil, add_zero, h1]
    refine ⟨r64 (a * b), rnd_of_le (by linarith), ?_, ?_⟩
    · have h3 := r64_near (a * b)
      have hu := u_pos
      have ht := tiny_pos
      simp only [Plan.leaves, he, List.length_singleton, pow_one]
      push_cast
      nlinarith
    · simp only [Plan.leaves, he, List.length_singleton]
      push_cast
      linarith
  | .add s t, h, hn, hs => by
    simp only [Plan.leaves, List.length_append] at hn hs ⊢
    push_cast at hs ⊢
    have hs1 : (0 : ℝ) ≤ s.leaves.length * B := by positivity
    have hs2 : (0 : ℝ) ≤ t.leaves.length * B := by positivity
    obtain ⟨x, hx, hx2, hx3⟩ := eval_error l hB0 s (fun i hi => h i (List.mem_append_left _ hi)) (by omega) (by linarith)
    obtain ⟨y, hy, hy2, hy3⟩ := eval_error l hB0 t (fun i hi => h i (List.mem_append_right _ hi)) (by omega) (by linarith)
    obtain ⟨x', hx', hx4⟩ := eval_bound l hB0 s (fun i hi => h i (List.mem_append_left _ hi)) (by omega) (by linarith)
    obtain ⟨y', hy', hy4⟩ := eval_bound l hB0 t (fun i hi => h i (List.mem_append_right _ hi)) (by omega) (by linarith)
    obtain rfl : x = x' := by rw [hx] at hx'; injection hx'
    obtain rfl : y = y' := by rw [hy] at hy'; injection hy'
    have dx : IsDouble (fin x) := hx ▸ isDouble_eval l s
    have dy : IsDouble (fin y) := hy ▸ isDouble_eval l t
    have hsum : exactSum l (s.leaves ++ t.leaves) = exactSum l s.leaves + exactSum l t.leaves := by simp [exactSum]
    have hsum2 : |exactSum l (s.leaves ++ t.leaves)| ≤ (s.leaves.length + t.leaves.length) * B := by
      rw [hsum, add_mul]
      exact (abs_add_le _ _).trans (add_le_add hx3 hy3)
    simp only [Plan.eval, hx, hy]
    by_cases e1 : s.leaves = []
    · have : x = 0 := by rw [eval_empty l s e1] at hx; injection hx with hx; exact hx.symm
      refine ⟨y, ?_, ?_, hsum2⟩
      · show rnd (x + y) = fin y
        rw [this, zero_add]
        exact dy
      · rw [e1]
        simpa using hy2
    by_cases e2 : t.leaves = []
    · have : y = 0 := by rw [eval_empty l t e2] at hy; injection hy with hy; exact hy.symm
      refine ⟨x, ?_, ?_, hsum2⟩
      · show rnd (x + y) = fin x
        rw [this, add_zero]
        exact dx
      · rw [e2]
        simpa using hx2
    have k1 : 1 ≤ s.leaves.length := List.length_pos_iff.2 e1
    have k2 : 1 ≤ t.leaves.length := List.length_pos_iff.2 e2
    rw [hsum] at hsum2 ⊢
    generalize exactSum l s.leaves = X at *
    generalize exactSum l t.leaves = Y at *
    generalize s.leaves.length = k at *
    generalize t.leaves.length = m at *
    have hu := u_pos
    have ht := tiny_pos
    have b1 := hx4.trans (two_k_bound (by omega) hB0)
    have b2 := hy4.trans (two_k_bound (by omega) hB0)
    have hl := four_sumMax
    have hxy : |x + y| ≤ |x| + |y| := abs_add_le x y
    refine ⟨r64 (x + y), rnd_of_le (by linarith), ?_, hsum2⟩
    have h3 := r64_near_grid ((isDouble_grid dx).add (isDouble_grid dy))
    have p1 : (1 + u) ^ k ≤ (1 + u) ^ (k + m - 1) := pow_le_pow_right₀ (by linarith) (by omega)
    have p2 : (1 + u) ^ m ≤ (1 + u) ^ (k + m - 1) := pow_le_pow_right₀ (by linarith) (by omega)
    have p3 : (1 + u) ^ (k + m) = (1 + u) ^ (k + m - 1) * (1 + u) := by rw [← pow_succ]; congr 1; omega
    rw [p3]
    generalize (1 + u) ^ (k + m - 1) = c at *
    have q1 : |x - X| ≤ (c - 1) * (k * B) + k * c * tiny :=
      hx2.trans (add_le_add (mul_le_mul_of_nonneg_right (by linarith) hs1) (mul_le_mul_of_nonneg_right (mul_le_mul_of_nonneg_left p1 (by positivity)) ht.le))
    have q2 : |y - Y| ≤ (c - 1) * (m * B) + m * c * tiny :=
      hy2.trans (add_le_add (mul_le_mul_of_nonneg_right (by linarith) hs2) (mul_le_mul_of_nonneg_right (mul_le_mul_of_nonneg_left p2 (by positivity)) ht.le))
    have q3 : |x + y - (X + Y)| ≤ (c - 1) * ((k + m) * B) + (k + m) * c * tiny := by
      rw [show x + y - (X + Y) = (x - X) + (y - Y) by ring]
      refine (abs_add_le _ _).trans ?_
      linarith
    have q4 : |x + y| ≤ (k + m) * B + ((c - 1) * ((k + m) * B) + (k + m) * c * tiny) := by
      have := abs_add_le (x + y - (X + Y)) (X + Y)
      rw [sub_add_cancel] at this
      linarith
    have q5 := abs_add_le (r64 (x + y) - (x + y)) (x + y - (X + Y))
    rw [sub_add_sub_cancel] at q5
    have q6 := mul_le_mul_of_nonneg_left q4 hu.le
    calc |r64 (x + y) - (X + Y)| ≤ u * |x + y| + |x + y - (X + Y)| := by linarith
      _ ≤ u * ((k + m) * B + ((c - 1) * ((k + m) * B) + (k + m) * c * tiny)) + ((c - 1) * ((k + m) * B) + (k + m) * c * tiny) := add_le_add q6 q3
      _ = (c * (1 + u) - 1) * ((k + m) * B) + (k + m) * (c * (1 + u)) * tiny := by ring
  | .fma i t, h, hn, hs => by
    simp only [Plan.leaves, List.length_cons] at hn hs ⊢
    push_cast at hs ⊢
    have hs2 : (0 : ℝ) ≤ t.leaves.length * B := by positivity
    obtain ⟨a, b, h1, h2⟩ := h i (List.mem_cons_self ..)
    obtain ⟨y, hy, hy2, hy3⟩ := eval_error l hB0 t (fun i hi => h i (List.mem_cons_of_mem _ hi)) (by omega) (by linarith)
    obtain ⟨y', hy', hy4⟩ := eval_bound l hB0 t (fun i hi => h i (List.mem_cons_of_mem _ hi)) (by omega) (by linarith)
    obtain rfl : y = y' := by rw [hy] at hy'; injection hy'
    have hsum : exactSum l (i :: t.leaves) = a * b + exactSum l t.leaves := by simp only [exactSum, List.map_cons, List.sum_cons, h1]
    simp only [Plan.eval, h1, hy, hsum]
    generalize exactSum l t.leaves = Y at *
    generalize t.leaves.length = m at *
    have hu := u_pos
    have ht := tiny_pos
    have b2 := hy4.trans (two_k_bound (by omega) hB0)
    have hl := four_sumMax
    have hp := sumMax_pos
    have hxy : |a * b + y| ≤ |a * b| + |y| := abs_add_le _ y
    refine ⟨r64 (a * b + y), rnd_of_le (by linarith), ?_, ?_⟩
    · have h3 := r64_near (a * b + y)
      have p1 : 1 ≤ (1 + u) ^ m := one_le_pow₀ (by linarith)
      rw [pow_succ]
      generalize (1 + u) ^ m = c at *
      have q4 : |a * b + y| ≤ (m + 1) * B + ((c - 1) * (m * B) + m * c * tiny) := by
        have := abs_add_le (y - Y) Y
        rw [sub_add_cancel] at this
        linarith
      have q5 := abs_add_le (r64 (a * b + y) - (a * b + y)) (a * b + y - (a * b + Y))
      rw [sub_add_sub_cancel, show a * b + y - (a * b + Y) = y - Y by ring] at q5
      have q6 := mul_le_mul_of_nonneg_left q4 hu.le
      have q7 : 0 ≤ (c - 1) * B := mul_nonneg (by linarith) hB0
      have q8 : 0 ≤ u * ((c - 1) * B) := by positivity
      have q9 : tiny ≤ c * (1 + u) * tiny := by
        have : 1 ≤ c * (1 + u) := by nlinarith
        nlinarith
      calc |r64 (a * b + y) - (a * b + Y)| ≤ u * |a * b + y| + tiny + |y - Y| := by linarith
        _ ≤ u * ((m + 1) * B + ((c - 1) * (m * B) + m * c * tiny)) + tiny + ((c - 1) * (m * B) + m * c * tiny) := by linarith
        _ ≤ (c * (1 + u) - 1) * ((m + 1) * B) + (m + 1) * (c * (1 + u)) * tiny := by nlinarith
    · have := abs_add_le (a * b) Y
      linarith

theorem exactSum_all {l : List (FV × FV)} {p : Plan} (h : p.For l) (t : Nat → ℝ) (ht : ∀ i, i < l.length → ∃ a b, l.getD i (fin 0, fin 0) = (fin a, fin b) ∧ a * b = t i) :
    exactSum l p.leaves = ∑ i ∈ Finset.range l.length, t i := by
  have h1 : exactSum l p.leaves = (p.leaves.map t).sum := by
    unfold exactSum
    congr 1
    refine List.map_congr_left fun i hi => ?_
    obtain ⟨a, b, e1, e2⟩ := ht i (h.inside i hi)
    rw [e1]
    exact e2
  rw [h1, ← List.sum_toFinset t h.nodup]
  refine Finset.sum_subset (fun i hi => Finset.mem_range.2 (h.inside i (List.mem_toFinset.1 hi))) fun i hi hni => ?_
  have hi' := Finset.mem_range.1 hi
  obtain ⟨a, b, e1, e2⟩ := ht i hi'
  rw [getD_of_lt hi'] at e1
  rcases h.all i l[i] (List.getElem?_eq_getElem hi') with h2 | h2 | h2
  · exact absurd (List.mem_toFinset.2 h2) hni
  · rw [e1] at h2
    injection h2 with h2
    rw [← e2, h2, zero_mul]
  · rw [e1] at h2
    injection h2 with h2
    rw [← e2, h2, mul_zero]

theorem app_dot {e f : Est} {N : ℝ} {n : Nat} {g h : Nat → Double P} {a b : Nat → ℝ} (hx : ∀ k, k < n → App e (g k) (a k)) (hy : ∀ k, k < n → App f (h k) (b k)) (heB : 0 ≤ e.B) (hfB : 0 ≤ f.B)
    (heE : 0 ≤ e.E) (hfE : 0 ≤ f.E) (hn : (n : ℝ) ≤ N) (hN : N < 2 ^ 50) (hs : N * (e.B * f.B) ≤ sumMax) :
    App (Est.dot N e f) (Arith.dot ((List.range n).map fun k => (g k, h k))) (Arith.dot ((List.range n).map fun k => (a k, b k)) : ℝ) := by
  have hB : 0 ≤ e.B * f.B := mul_nonneg heB hfB
  have hu := u_pos
  have htiny := tiny_pos
  choose! p hp p1 p2 p3 using hx
  choose! q hq q1 q2 q3 using hy
  set l : List (FV × FV) := ((List.range n).map fun k => (g k, h k)).map fun x => (x.1.v, x.2.v) with hl
  have hlen : l.length = n := by simp [hl]
  have hget : ∀ i, i < n → l.getD i (fin 0, fin 0) = (fin (p i), fin (q i)) := fun i hi => by
    rw [getD_of_lt (by omega)]
    simp [hl, hp i hi, hq i hi]
  have hpl := P.dotPlan_ok l
  have hk := leaves_le hpl
  rw [hlen] at hk
  have hpq : ∀ i, i < n → |p i * q i| ≤ e.B * f.B := fun i hi => by
    rw [abs_mul]
    exact mul_le_mul (p1 i hi) (q1 i hi) (abs_nonneg _) heB
  have hleaf : ∀ i ∈ (P.dotPlan l).leaves, ∃ a b, l.getD i (fin 0, fin 0) = (fin a, fin b) ∧ |a * b| ≤ e.B * f.B := fun i hi => by
    have hi' : i < n := by have := hpl.inside i hi; omega
    exact ⟨_, _, hget i hi', hpq i hi'⟩
  have hn50 : n < 2 ^ 50 := by exact_mod_cast lt_of_le_of_lt hn hN
  have hkn : ((P.dotPlan l).leaves.length : ℝ) ≤ n := by exact_mod_cast hk
  have hnN : n * (e.B * f.B) ≤ N * (e.B * f.B) := mul_le_mul_of_nonneg_right hn hB
  have hks : (P.dotPlan l).leaves.length * (e.B * f.B) ≤ n * (e.B * f.B) := mul_le_mul_of_nonneg_right hkn hB
  obtain ⟨r, hr, hr2, hr3⟩ := eval_error l hB _ hleaf (by omega) (by linarith)
  obtain ⟨r', hr', hr4⟩ := eval_bound l hB _ hleaf (by omega) (by linarith)
  obtain rfl : r = r' := by rw [hr] at hr'; injection hr'
  have hsum := exactSum_all hpl (fun i => p i * q i) fun i hi => ⟨_, _, hget i (by omega), rfl⟩
  rw [hlen] at hsum
  have hreal : (Arith.dot ((List.range n).map fun k => (a k, b k)) : ℝ) = ∑ i ∈ Finset.range n, a i * b i := by
    show (((List.range n).map fun k => (a k, b k)).map fun p => p.1 * p.2).sum = _
    rw [List.map_map, ← sum_range_list]
    rfl
  rw [hreal]
  rw [hsum] at hr2
  have hN0 : 0 ≤ N := le_trans (Nat.cast_nonneg n) hn
  have hdiff : |∑ i ∈ Finset.range n, p i * q i - ∑ i ∈ Finset.range n, a i * b i| ≤ n * (e.B * f.E + f.B * e.E) := by
    rw [← Finset.sum_sub_distrib]
    refine (Finset.abs_sum_le_sum_abs _ _).trans ?_
    have := Finset.sum_le_card_nsmul (Finset.range n) (fun i => |p i * q i - a i * b i|) (e.B * f.E + f.B * e.E) fun i hi => by
      have hi := Finset.mem_range.1 hi
      exact mul_diff (p1 i hi) (q2 i hi) (p3 i hi) (q3 i hi)
    rw [Finset.card_range, nsmul_eq_mul] at this
    exact this
  have hsb : |∑ i ∈ Finset.range n, a i * b i| ≤ n * (e.B * f.B) := by
    refine (Finset.abs_sum_le_sum_abs _ _).trans ?_
    have := Finset.sum_le_card_nsmul (Finset.range n) (fun i => |a i * b i|) (e.B * f.B) fun i hi => by
      have hi := Finset.mem_range.1 hi
      simp only [abs_mul]
      exact mul_le_mul (p2 i hi) (q2 i hi) (abs_nonneg _) heB
    rw [Finset.card_range, nsmul_eq_mul] at this
    exact this
  have hEE : 0 ≤ e.B * f.E + f.B * e.E := by positivity
  refine ⟨r, hr, ?_, ?_, ?_⟩
  · have := hr4.trans (two_k_bound (by omega) hB)
    simp only [Est.dot]
    linarith
  · simp only [Est.dot]
    have : 0 ≤ N * (e.B * f.B) := mul_nonneg hN0 hB
    linarith
  · have c1 := u_pow_le (P.dotPlan l).leaves.length (by omega)
    have c2 := u_pow_two (k := (P.dotPlan l).leaves.length) (by omega)
    have hk0 : (0 : ℝ) ≤ (P.dotPlan l).leaves.length := Nat.cast_nonneg _
    generalize ((P.dotPlan l).leaves.length : ℝ) = k at *
    generalize (1 + u) ^ (P.dotPlan l).leaves.length = c at *
    have hkN : k ≤ N := hkn.trans hn
    have d1 : (c - 1) * (k * (e.B * f.B)) ≤ 2 * N * u * (N * (e.B * f.B)) := by
      refine mul_le_mul ?_ (mul_le_mul_of_nonneg_right hkN hB) (by positivity) (by positivity)
      nlinarith
    have d2 : k * c * tiny ≤ 2 * N * tiny := by
      refine mul_le_mul_of_nonneg_right ?_ htiny.le
      nlinarith
    have d3 := abs_add_le (r - ∑ i ∈ Finset.range n, p i * q i) (∑ i ∈ Finset.range n, p i * q i - ∑ i ∈ Finset.range n, a i * b i)
    rw [sub_add_sub_cancel] at d3
    have d4 := mul_le_mul_of_nonneg_right hn hEE
    simp only [Est.dot]
    linarith

end
end Nnet.NN.Flt
