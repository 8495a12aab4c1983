import Verif.NN.Binary64
import Verif.NN.FloatWitness
/-!
# Binary64 has the properties listed in `Ieee`
-/
namespace Nnet.NN.Flt.B64
open FV
noncomputable section

/-! ## Rounding to integers -/

theorem roundEven_near (x : ℝ) : |(roundEven x : ℝ) - x| ≤ 1 / 2 := by
  have h1 := Int.floor_le x
  have h2 := Int.lt_floor_add_one x
  unfold roundEven
  rw [abs_le]
  split_ifs <;> push_cast <;> constructor <;> linarith

theorem roundEven_int (n : ℤ) : roundEven n = n := by
  unfold roundEven
  rw [Int.floor_intCast, if_pos (by norm_num)]

theorem roundEven_le_int {x : ℝ} {n : ℤ} (h : x ≤ n) : roundEven x ≤ n := by
  by_contra hc
  have h1 : ((n + 1 : ℤ) : ℝ) ≤ roundEven x := by exact_mod_cast Int.add_one_le_iff.2 (not_le.1 hc)
  have h2 := (abs_le.1 (roundEven_near x)).2
  push_cast at h1
  linarith

theorem int_le_roundEven {x : ℝ} {n : ℤ} (h : (n : ℝ) ≤ x) : n ≤ roundEven x := by
  by_contra hc
  have h1 : ((roundEven x + 1 : ℤ) : ℝ) ≤ n := by exact_mod_cast Int.add_one_le_iff.2 (not_le.1 hc)
  have h2 := (abs_le.1 (roundEven_near x)).1
  push_cast at h1
  linarith

theorem roundEven_mono {x y : ℝ} (h : x ≤ y) : roundEven x ≤ roundEven y := by
  have hf := Int.floor_le_floor h
  have h1 := Int.floor_le x
  have h2 := Int.lt_floor_add_one x
  have h3 := Int.floor_le y
  have h4 := Int.lt_floor_add_one y
  rcases eq_or_lt_of_le hf with he | hl
  · unfold roundEven
    rw [← he]
    rw [← he] at h3 h4
    split_ifs <;> first | omega | (exfalso; linarith)
  · have h5 : roundEven x ≤ ⌊x⌋ + 1 := roundEven_le_int (by push_cast; linarith)
    have h6 : ⌊y⌋ ≤ roundEven y := int_le_roundEven h3
    omega

theorem roundEven_neg (x : ℝ) : roundEven (-x) = -roundEven x := by
  have h1 := Int.floor_le x
  have h2 := Int.lt_floor_add_one x
  by_cases hx : x = ⌊x⌋
  · rw [hx, ← Int.cast_neg, roundEven_int, roundEven_int]
  have h1' : (⌊x⌋ : ℝ) < x := lt_of_le_of_ne h1 (Ne.symm hx)
  have hf : ⌊-x⌋ = -⌊x⌋ - 1 := by
    rw [Int.floor_eq_iff]
    push_cast
    constructor <;> linarith
  unfold roundEven
  rw [hf]
  push_cast
  have hev : Even (-⌊x⌋ - 1) ↔ ¬ Even ⌊x⌋ := by
    rw [Int.even_sub_one, even_neg]
  by_cases a : x - ⌊x⌋ < 1 / 2
  · rw [if_neg (by linarith), if_pos (by linarith), if_pos a]; ring
  by_cases b : 1 / 2 < x - ⌊x⌋
  · rw [if_pos (by linarith), if_neg a, if_pos b]; ring
  rw [if_neg (by linarith), if_neg (by linarith), if_neg a, if_neg b]
  by_cases c : Even ⌊x⌋
  · rw [if_neg (by rw [hev]; exact not_not.2 c), if_pos c]; ring
  · rw [if_pos (hev.2 c), if_neg c]; ring

/-- Rounding at most doubles a distance from an integer. -/
theorem roundEven_shift (u : ℝ) (m : ℤ) : |(roundEven (u + m) : ℝ) - m| ≤ 2 * |u| := by
  have h := abs_le.1 (roundEven_near (u + m))
  by_cases hu : |u| < 1 / 2
  · have h' := abs_lt.1 hu
    have h1 : roundEven (u + m) = m := by
      have a : ((roundEven (u + m) : ℤ) : ℝ) < (m + 1 : ℤ) := by push_cast; linarith [h.2]
      have b : ((m - 1 : ℤ) : ℝ) < (roundEven (u + m) : ℤ) := by push_cast; linarith [h.1]
      have a' : roundEven (u + m) < m + 1 := by exact_mod_cast a
      have b' : m - 1 < roundEven (u + m) := by exact_mod_cast b
      omega
    rw [h1, sub_self, abs_zero]
    positivity
  · push Not at hu
    have : |(roundEven (u + m) : ℝ) - m| ≤ |(roundEven (u + m) : ℝ) - (u + m)| + |u| := by
      have := abs_add_le ((roundEven (u + m) : ℝ) - (u + m)) u
      rwa [show (roundEven (u + m) : ℝ) - (u + m) + u = (roundEven (u + m) : ℝ) - m by ring] at this
    have := roundEven_near (u + m)
    linarith

theorem roundEven_double (u : ℝ) : |(roundEven u : ℝ)| ≤ 2 * |u| := by
  have := roundEven_shift u 0
  simpa using this

/-! ## 53 bits -/

theorem two_zpow_pos (e : ℤ) : (0 : ℝ) < 2 ^ e := by positivity

theorem expo_neg (x : ℝ) : expo (-x) = expo x := by unfold expo; rw [abs_neg]
theorem expo_ge (x : ℝ) : -1074 ≤ expo x := le_max_right _ _

theorem r64_neg (x : ℝ) : r64 (-x) = -r64 x := by
  unfold r64
  rw [expo_neg, neg_div, roundEven_neg]
  push_cast
  ring

theorem log_le {x : ℝ} (h : 0 < x) : (2 : ℝ) ^ Int.log 2 x ≤ x := by
  have := Int.zpow_log_le_self (b := 2) (r := x) (by norm_num) h
  exact_mod_cast this
theorem lt_log (x : ℝ) : x < (2 : ℝ) ^ (Int.log 2 x + 1) := by
  have := Int.lt_zpow_succ_log_self (b := 2) (by norm_num) x
  exact_mod_cast this

theorem zpow_int {m e : ℤ} (h : e ≤ m) : ∃ n : ℤ, (2 : ℝ) ^ m = n * 2 ^ e := by
  refine ⟨2 ^ (m - e).toNat, ?_⟩
  push_cast
  rw [← zpow_natCast, ← zpow_add₀ (by norm_num)]
  congr 1
  omega

theorem r64_le_mul {x : ℝ} {n : ℤ} (h : x ≤ n * 2 ^ expo x) : r64 x ≤ n * 2 ^ expo x := by
  unfold r64
  refine mul_le_mul_of_nonneg_right ?_ (two_zpow_pos _).le
  exact_mod_cast roundEven_le_int ((div_le_iff₀ (two_zpow_pos _)).2 h)

theorem mul_le_r64 {x : ℝ} {n : ℤ} (h : n * 2 ^ expo x ≤ x) : n * 2 ^ expo x ≤ r64 x := by
  unfold r64
  refine mul_le_mul_of_nonneg_right ?_ (two_zpow_pos _).le
  exact_mod_cast int_le_roundEven ((le_div_iff₀ (two_zpow_pos _)).2 h)

theorem r64_le_zpow {x : ℝ} {m : ℤ} (h : x ≤ 2 ^ m) (he : expo x ≤ m) : r64 x ≤ 2 ^ m := by
  obtain ⟨n, hn⟩ := zpow_int he
  rw [hn] at h ⊢
  exact r64_le_mul h

theorem zpow_le_r64 {x : ℝ} {m : ℤ} (h : 2 ^ m ≤ x) (he : expo x ≤ m) : 2 ^ m ≤ r64 x := by
  obtain ⟨n, hn⟩ := zpow_int he
  rw [hn] at h ⊢
  exact mul_le_r64 h

theorem r64_zero : r64 0 = 0 := by
  unfold r64
  rw [zero_div]
  have := roundEven_int 0
  rw [Int.cast_zero] at this
  rw [this]
  simp

theorem r64_nonneg {x : ℝ} (h : 0 ≤ x) : 0 ≤ r64 x := by
  have := mul_le_r64 (x := x) (n := 0) (by simpa using h)
  simpa using this

theorem r64_mono_pos {x y : ℝ} (hx : 0 < x) (h : x ≤ y) : r64 x ≤ r64 y := by
  have hy : 0 < y := hx.trans_le h
  have hlog : Int.log 2 x ≤ Int.log 2 y := Int.log_mono_right hx h
  by_cases he : expo x = expo y
  · unfold r64
    rw [he]
    refine mul_le_mul_of_nonneg_right ?_ (two_zpow_pos _).le
    exact_mod_cast roundEven_mono (div_le_div_of_nonneg_right h (two_zpow_pos _).le)
  · have e1 : expo x = max (Int.log 2 x - 52) (-1074) := by unfold expo; rw [abs_of_pos hx]
    have e2 : expo y = max (Int.log 2 y - 52) (-1074) := by unfold expo; rw [abs_of_pos hy]
    have h1 : Int.log 2 x + 1 ≤ Int.log 2 y := by
      by_contra hc
      exact he (by rw [e1, e2, show Int.log 2 x = Int.log 2 y by omega])
    have h2 : expo y = Int.log 2 y - 52 := by omega
    have h3 : expo x ≤ Int.log 2 y := by omega
    refine (r64_le_zpow (m := Int.log 2 y) ?_ h3).trans (zpow_le_r64 (log_le hy) (by omega))
    exact (lt_log x).le.trans (zpow_le_zpow_right₀ (by norm_num) h1)

theorem r64_mono {x y : ℝ} (h : x ≤ y) : r64 x ≤ r64 y := by
  rcases lt_or_ge 0 x with hx | hx
  · exact r64_mono_pos hx h
  rcases lt_or_ge y 0 with hy | hy
  · have := r64_mono_pos (neg_pos.2 hy) (neg_le_neg h)
    rw [r64_neg, r64_neg] at this
    linarith
  · have h1 := r64_nonneg hy
    have h2 := r64_nonneg (neg_nonneg.2 hx)
    rw [r64_neg] at h2
    linarith

/-- Numbers of at most 53 bits. -/
theorem r64_exact_lt {n e : ℤ} (hn : |n| < 2 ^ 53) (he : -1074 ≤ e) : r64 (n * 2 ^ e) = n * 2 ^ e := by
  by_cases h0 : n = 0
  · rw [h0]; simp [r64_zero]
  have hpos : (0 : ℝ) < |(n : ℝ) * 2 ^ e| := abs_pos.2 (mul_ne_zero (by exact_mod_cast h0) (two_zpow_pos e).ne')
  have h1 : |(n : ℝ) * 2 ^ e| < 2 ^ (53 + e) := by
    rw [abs_mul, abs_of_pos (two_zpow_pos e), zpow_add₀ (by norm_num)]
    refine mul_lt_mul_of_pos_right ?_ (two_zpow_pos e)
    exact_mod_cast hn
  have h2 : Int.log 2 |(n : ℝ) * 2 ^ e| < 53 + e := by
    have := (log_le hpos).trans_lt h1
    exact (zpow_lt_zpow_iff_right₀ (by norm_num : (1 : ℝ) < 2)).1 this
  have h3 : expo (n * 2 ^ e) ≤ e := by unfold expo; omega
  obtain ⟨m, hm⟩ := zpow_int h3
  unfold r64
  have h4 : (n : ℝ) * 2 ^ e / 2 ^ expo (n * 2 ^ e) = ((n * m : ℤ) : ℝ) := by
    rw [div_eq_iff (two_zpow_pos _).ne']
    push_cast
    rw [mul_assoc, ← hm]
  rw [h4, roundEven_int]
  push_cast
  rw [mul_assoc, ← hm]

theorem r64_exact {n e : ℤ} (hn : |n| ≤ 2 ^ 53) (he : -1074 ≤ e) : r64 (n * 2 ^ e) = n * 2 ^ e := by
  rcases lt_or_eq_of_le hn with h | h
  · exact r64_exact_lt h he
  · have h1 : ∃ k : ℤ, |k| < 2 ^ 53 ∧ n = k * 2 := by
      rcases abs_eq (by norm_num) |>.1 h with h | h
      · exact ⟨2 ^ 52, by norm_num, by rw [h]; norm_num⟩
      · exact ⟨-2 ^ 52, by norm_num, by rw [h]; norm_num⟩
    obtain ⟨k, hk, rfl⟩ := h1
    have : ((k * 2 : ℤ) : ℝ) * 2 ^ e = k * 2 ^ (e + 1) := by
      rw [zpow_add₀ (by norm_num)]
      push_cast
      ring
    rw [this]
    exact r64_exact_lt hk (by omega)

theorem r64_zpow {e : ℤ} (he : -1074 ≤ e) : r64 (2 ^ e) = 2 ^ e := by
  have := r64_exact (n := 1) (by norm_num) he
  simpa using this

theorem r64_int {n : ℤ} (hn : |n| ≤ 2 ^ 53) : r64 n = n := by
  have := r64_exact (e := 0) hn (by norm_num)
  simpa using this

theorem scaled_le (x : ℝ) : |x / 2 ^ expo x| ≤ 2 ^ 53 := by
  rw [abs_div, abs_of_pos (two_zpow_pos _), div_le_iff₀ (two_zpow_pos _)]
  refine (lt_log |x|).le.trans ?_
  have h : (2 : ℝ) ^ (53 : ℕ) * 2 ^ expo x = 2 ^ (53 + expo x) := by
    rw [zpow_add₀ (by norm_num)]
    norm_cast
  rw [h]
  refine zpow_le_zpow_right₀ (by norm_num) ?_
  unfold expo
  omega

theorem r64_idem (x : ℝ) : r64 (r64 x) = r64 x := by
  conv_lhs => unfold r64
  have h := abs_le.1 (scaled_le x)
  refine r64_exact ?_ (expo_ge x)
  rw [abs_le]
  exact ⟨int_le_roundEven (by push_cast; linarith [h.1]), roundEven_le_int (by push_cast; linarith [h.2])⟩

theorem r64_double (x : ℝ) : |r64 x| ≤ 2 * |x| := by
  unfold r64
  rw [abs_mul, abs_of_pos (two_zpow_pos _)]
  have := mul_le_mul_of_nonneg_right (roundEven_double (x / 2 ^ expo x)) (two_zpow_pos (expo x)).le
  rw [abs_div, abs_of_pos (two_zpow_pos (expo x)), mul_assoc, div_mul_cancel₀ _ (two_zpow_pos _).ne'] at this
  exact this

/-- A multiple of the smallest subnormal number. -/
def Grid (x : ℝ) : Prop := ∃ n : ℤ, x = n * 2 ^ (-1074 : ℤ)

theorem r64_grid (x : ℝ) : Grid (r64 x) := by
  obtain ⟨n, hn⟩ := zpow_int (expo_ge x)
  refine ⟨roundEven (x / 2 ^ expo x) * n, ?_⟩
  unfold r64
  rw [hn]
  push_cast
  ring

theorem Grid.add {x y : ℝ} (hx : Grid x) (hy : Grid y) : Grid (x + y) := by
  obtain ⟨n, rfl⟩ := hx
  obtain ⟨m, rfl⟩ := hy
  exact ⟨n + m, by push_cast; ring⟩

/-- Relative error of half a unit in the last place. -/
def u : ℝ := 1 / 2 ^ 53

/-- One rounding of `p + c` for a number `c`: relative error `u`, and an underflowing `p` counts at most twice. -/
theorem r64_sum {p c : ℝ} (hc : Grid c) : |r64 (p + c)| ≤ (1 + u) * (2 * |p| + |c|) := by
  have hu : (0 : ℝ) < u := by unfold u; positivity
  obtain ⟨m, rfl⟩ := hc
  by_cases he : expo (p + m * 2 ^ (-1074 : ℤ)) = -1074
  · unfold r64
    rw [he]
    have hq := two_zpow_pos (-1074)
    set q : ℝ := 2 ^ (-1074 : ℤ) with hqdef
    have h1 : (p + m * q) / q = p / q + m := by field_simp
    rw [h1]
    have h2 := roundEven_shift (p / q) m
    have h3 : |(roundEven (p / q + m) : ℝ)| ≤ 2 * |p / q| + |(m : ℝ)| := by
      have := abs_add_le ((roundEven (p / q + m) : ℝ) - m) m
      rw [sub_add_cancel] at this
      linarith
    rw [abs_mul, abs_of_pos hq]
    have h4 := mul_le_mul_of_nonneg_right h3 hq.le
    rw [abs_div, abs_of_pos hq, add_mul, mul_assoc, div_mul_cancel₀ _ hq.ne'] at h4
    rw [abs_mul, abs_of_pos hq]
    have h5 : 0 ≤ 2 * |p| + |(m : ℝ)| * q := by positivity
    nlinarith
  · generalize hx : p + m * 2 ^ (-1074 : ℤ) = x at he ⊢
    have he2 : expo x = Int.log 2 |x| - 52 := by unfold expo at he ⊢; omega
    have hb : 0 ≤ 2 * |p| + |(m : ℝ) * 2 ^ (-1074 : ℤ)| := by positivity
    by_cases h0 : x = 0
    · rw [h0, r64_zero, abs_zero]
      positivity
    have hpos : 0 < |x| := abs_pos.2 h0
    have h1 : |r64 x - x| ≤ u * |x| := by
      have hq := two_zpow_pos (expo x)
      have h2 : r64 x - x = (roundEven (x / 2 ^ expo x) - x / 2 ^ expo x) * 2 ^ expo x := by
        rw [sub_mul, div_mul_cancel₀ _ hq.ne']
        rfl
      rw [h2, abs_mul, abs_of_pos hq]
      have h3 := mul_le_mul_of_nonneg_right (roundEven_near (x / 2 ^ expo x)) hq.le
      have h4 : 1 / 2 * (2 : ℝ) ^ expo x = u * 2 ^ Int.log 2 |x| := by
        rw [he2, zpow_sub₀ (by norm_num), u]
        norm_num
        ring
      rw [h4] at h3
      exact h3.trans (mul_le_mul_of_nonneg_left (log_le hpos) hu.le)
    have h5 : |r64 x| ≤ (1 + u) * |x| := by
      have := abs_add_le (r64 x - x) x
      rw [sub_add_cancel] at this
      linarith
    refine h5.trans (mul_le_mul_of_nonneg_left ?_ (by linarith))
    rw [← hx]
    have := abs_add_le p (m * 2 ^ (-1074 : ℤ))
    have := abs_nonneg p
    linarith

/-! ## Rounding to `double` -/

theorem large_zpow : large = (2 : ℝ) ^ (1023 : ℤ) := by unfold large; rw [← zpow_natCast, Nat.cast_ofNat]
theorem overflow_zpow : overflow = (2 : ℝ) ^ (1024 : ℤ) := by unfold overflow; rw [← zpow_natCast, Nat.cast_ofNat]
theorem r64_large : r64 large = large := by rw [large_zpow]; exact r64_zpow (by norm_num)
theorem r64_overflow : r64 overflow = overflow := by rw [overflow_zpow]; exact r64_zpow (by norm_num)

theorem rnd_fin {x : ℝ} (h : |r64 x| < overflow) : rnd x = fin (r64 x) := by
  obtain ⟨h1, h2⟩ := abs_lt.1 h
  unfold rnd
  rw [if_neg (by linarith), if_neg (by linarith)]

theorem r64_abs_le {x b : ℝ} (h : |x| ≤ b) (hb : r64 b = b) : |r64 x| ≤ b := by
  obtain ⟨h1, h2⟩ := abs_le.1 h
  have h3 := r64_mono h1
  have h4 := r64_mono h2
  rw [r64_neg, hb] at h3
  rw [hb] at h4
  exact abs_le.2 ⟨h3, h4⟩

theorem rnd_eq {x q : ℝ} (h : rnd x = fin q) : q = r64 x ∧ |q| < overflow := by
  unfold rnd at h
  split_ifs at h with a b
  injection h with h
  refine ⟨h.symm, ?_⟩
  rw [← h]
  exact abs_lt.2 ⟨not_le.1 b, not_le.1 a⟩

theorem rnd_of_le {x : ℝ} (h : |x| ≤ large) : rnd x = fin (r64 x) := by
  refine rnd_fin ((r64_abs_le h r64_large).trans_lt ?_)
  have := large_pos
  rw [overflow_eq]
  linarith

theorem rnd_ne_nan (x : ℝ) : rnd x ≠ nan := by unfold rnd; split_ifs <;> simp

theorem rnd_mono (x y : ℝ) (h : x ≤ y) : Le (rnd x) (rnd y) := by
  have hm := r64_mono h
  have ho : 0 < overflow := by unfold overflow; positivity
  unfold rnd
  split_ifs <;> simp only [Le] <;> first | trivial | linarith

theorem rnd_neg (x : ℝ) : rnd (-x) = (rnd x).neg := by
  have ho : 0 < overflow := by unfold overflow; positivity
  unfold rnd
  rw [r64_neg]
  by_cases a : overflow ≤ r64 x
  · rw [if_neg (by linarith), if_pos (by linarith), if_pos a]; rfl
  by_cases b : r64 x ≤ -overflow
  · rw [if_pos (by linarith), if_neg a, if_pos b]; rfl
  rw [if_neg (by linarith), if_neg (by linarith), if_neg a, if_neg b]; rfl

theorem rnd_idem {x q : ℝ} (h : rnd x = fin q) : rnd q = fin q := by
  obtain ⟨h1, h2⟩ := rnd_eq h
  have h3 : r64 q = q := by rw [h1, r64_idem]
  rw [rnd_fin (by rw [h3]; exact h2), h3]

theorem r64_one {x : ℝ} (h1 : 1 ≤ x) (h2 : x ≤ 1 + 1 / 2 ^ 53) : r64 x = 1 := by
  have hlog : Int.log 2 x = 0 := by
    have a := log_le (by linarith : 0 < x)
    have b := lt_log x
    have hx2 : x < 2 := by
      have : (1 : ℝ) / 2 ^ 53 < 1 := by norm_num
      linarith
    have c : (2 : ℝ) ^ Int.log 2 x < 2 ^ (1 : ℤ) := by rw [zpow_one]; linarith
    have d : (2 : ℝ) ^ (0 : ℤ) < 2 ^ (Int.log 2 x + 1) := by rw [zpow_zero]; linarith
    have c' := (zpow_lt_zpow_iff_right₀ (by norm_num : (1 : ℝ) < 2)).1 c
    have d' := (zpow_lt_zpow_iff_right₀ (by norm_num : (1 : ℝ) < 2)).1 d
    omega
  have he : expo x = -52 := by
    unfold expo
    rw [abs_of_nonneg (by linarith), hlog]
    norm_num
  have hq : (2 : ℝ) ^ (-52 : ℤ) = 1 / 2 ^ 52 := by norm_num
  have hr : roundEven (x / 2 ^ (-52 : ℤ)) = 2 ^ 52 := by
    rw [hq, div_div_eq_mul_div, div_one]
    have a1 : (2 : ℝ) ^ 52 ≤ x * 2 ^ 52 := by nlinarith
    have a2 : x * 2 ^ 52 ≤ 2 ^ 52 + 1 / 2 := by
      have := mul_le_mul_of_nonneg_right h2 (by norm_num : (0 : ℝ) ≤ 2 ^ 52)
      norm_num at this ⊢
      linarith
    have hf : ⌊x * 2 ^ 52⌋ = 2 ^ 52 := by
      rw [Int.floor_eq_iff]
      push_cast
      constructor <;> linarith
    unfold roundEven
    rw [hf]
    push_cast
    split_ifs with c1 c2 c3
    · rfl
    · linarith
    · rfl
    · exact absurd (by decide) c3
  unfold r64
  rw [he, hr, hq]
  norm_num

theorem rounding : Rounding rnd where
  notNan := rnd_ne_nan
  mono := rnd_mono
  int n hn := by
    have h := r64_int hn
    rw [rnd_of_le, h]
    refine le_trans ?_ int_le_large
    exact_mod_cast hn
  one x h1 h2 := by
    have h := r64_one h1 h2
    rw [rnd_fin, h]
    rw [h, abs_one]
    have := one_le_large
    rw [overflow_eq]
    linarith
  finite x h := ⟨r64 x, rnd_of_le h, r64_double x⟩
  big x h := by
    have := r64_mono h
    rw [r64_overflow] at this
    unfold rnd
    rw [if_pos this]
  small x h := by
    have := r64_mono h
    rw [r64_neg, r64_overflow] at this
    have ho : 0 < overflow := by unfold overflow; positivity
    unfold rnd
    rw [if_neg (by linarith), if_pos this]

end
end Nnet.NN.Flt.B64
