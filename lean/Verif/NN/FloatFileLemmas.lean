import Verif.NN.FloatFile
import Verif.NN.PropsText
/-!
# Six digits of a `double`
-/
namespace Nnet.NN.Flt.B64
open FV
noncomputable section

/-! ## The nearest double -/

theorem roundEven_nearest (t : ℝ) (n : ℤ) : |(roundEven t : ℝ) - t| ≤ |(n : ℝ) - t| := by
  have h := roundEven_near t
  by_contra hc
  have hlt : |(n : ℝ) - t| < |(roundEven t : ℝ) - t| := not_le.1 hc
  have h1 : |((n - roundEven t : ℤ) : ℝ)| < 1 := by
    push_cast
    calc |(n : ℝ) - roundEven t| = |((n : ℝ) - t) - ((roundEven t : ℝ) - t)| := by ring_nf
      _ ≤ |(n : ℝ) - t| + |(roundEven t : ℝ) - t| := abs_sub _ _
      _ < 1 := by linarith
  have h2 : n - roundEven t = 0 := by
    have : |n - roundEven t| < 1 := by exact_mod_cast h1
    exact Int.abs_lt_one_iff.1 this
  rw [show n = roundEven t by omega] at hlt
  exact lt_irrefl _ hlt

/-- `r64 x` is a nearest one of the numbers with 53 bits. -/
theorem r64_nearest {x d : ℝ} (hd : r64 d = d) : |r64 x - x| ≤ |d - x| := by
  by_cases hx0 : x = 0
  · rw [hx0, r64_zero, sub_zero, abs_zero]; exact abs_nonneg _
  have hq := two_zpow_pos (expo x)
  have key : ∀ n : ℤ, |r64 x - x| ≤ |(n : ℝ) * 2 ^ expo x - x| := by
    intro n
    have h := roundEven_nearest (x / 2 ^ expo x) n
    have := mul_le_mul_of_nonneg_right h hq.le
    rw [← abs_of_pos hq, ← abs_mul, ← abs_mul, abs_of_pos hq, sub_mul, sub_mul, div_mul_cancel₀ _ hq.ne'] at this
    exact this
  by_cases he : expo x ≤ expo d
  · obtain ⟨k, hk⟩ := zpow_int he
    have h := key (roundEven (d / 2 ^ expo d) * k)
    push_cast at h
    rw [mul_assoc, ← hk] at h
    rw [← hd]
    exact h
  · have he' : expo d < expo x := not_le.1 he
    have hx : expo x = Int.log 2 |x| - 52 := by
      have := expo_ge d
      unfold expo at he' this ⊢
      omega
    have hlog : Int.log 2 |d| < Int.log 2 |x| := by
      have : Int.log 2 |d| - 52 ≤ expo d := le_max_left _ _
      omega
    have hdx : |d| ≤ 2 ^ Int.log 2 |x| := (lt_log |d|).le.trans (zpow_le_zpow_right₀ (by norm_num) (by omega))
    have hlx := log_le (abs_pos.2 hx0)
    obtain ⟨k, hk⟩ := zpow_int (show expo x ≤ Int.log 2 |x| by omega)
    have htri := abs_sub_abs_le_abs_sub x d
    rw [abs_sub_comm x d] at htri
    rcases lt_or_gt_of_ne hx0 with hneg | hpos
    · refine (key (-k)).trans ?_
      push_cast
      rw [neg_mul, ← hk]
      rw [abs_of_neg hneg] at hlx htri hdx ⊢
      rw [abs_of_nonneg (by linarith)]
      linarith
    · refine (key k).trans ?_
      rw [← hk]
      rw [abs_of_pos hpos] at hlx htri hdx ⊢
      rw [abs_of_nonpos (by linarith)]
      linarith

/-! ## Six digits -/

theorem ten_pow (X : ℤ) (k : ℕ) : (10 : ℝ) ^ X = 10 ^ k * (10 : ℝ) ^ (X - k) := by
  rw [← zpow_natCast, ← zpow_add₀ (by norm_num)]; congr 1; ring

theorem roundEven_lt {x : ℝ} {n : ℤ} (h : |x - n| < 1 / 2) : NN.roundEven x = n := by
  have h1 := NN.roundEven_dist x
  have h2 : |((NN.roundEven x - n : ℤ) : ℝ)| < 1 := by
    push_cast
    calc |(NN.roundEven x : ℝ) - n| = |((NN.roundEven x : ℝ) - x) + (x - n)| := by ring_nf
      _ ≤ |(NN.roundEven x : ℝ) - x| + |x - n| := abs_add_le _ _
      _ < 1 := by linarith
  have h3 : NN.roundEven x - n = 0 := by
    have : |NN.roundEven x - n| < 1 := by exact_mod_cast h2
    exact Int.abs_lt_one_iff.1 this
  omega

/-- Numbers within half a unit of the sixth digit of `m * 10^(X-5)` have these six digits; below `10^X` the unit is ten times smaller. -/
theorem sixDigits_of_near {a : ℝ} {m : Nat} {X : ℤ} (h1 : 10 ^ 5 ≤ m) (h2 : m < 10 ^ 6) (hn : |a - m * (10 : ℝ) ^ (X - 5)| < 1 / 2 * (10 : ℝ) ^ (X - 5))
    (hb : (10 : ℝ) ^ X ≤ a ∨ (m = 10 ^ 5 ∧ (10 : ℝ) ^ X - a < 1 / 2 * (10 : ℝ) ^ (X - 6))) : sixDigits a = (m, X) := by
  have h10 : (0 : ℝ) < 10 := by norm_num
  set q := (10 : ℝ) ^ (X - 6) with hq
  have hq0 : 0 < q := zpow_pos h10 _
  have e5 : (10 : ℝ) ^ (X - 5) = 10 * q := by rw [ten_pow (X - 5) 1, hq]; norm_num; ring_nf
  have e0 : (10 : ℝ) ^ X = 10 ^ 6 * q := by rw [ten_pow X 6, hq]; norm_num
  have em : (10 : ℝ) ^ (X - 1) = 10 ^ 5 * q := by rw [ten_pow (X - 1) 5, hq]; push_cast; ring_nf
  have ep : (10 : ℝ) ^ (X + 1) = 10 ^ 7 * q := by rw [ten_pow (X + 1) 7, hq]; push_cast; ring_nf
  have h1' : (10 : ℝ) ^ 5 ≤ m := by exact_mod_cast h1
  have h2' : (m : ℝ) ≤ 10 ^ 6 - 1 := by
    have : m + 1 ≤ 10 ^ 6 := h2
    have : (m : ℝ) + 1 ≤ 10 ^ 6 := by exact_mod_cast this
    linarith
  rw [e5] at hn
  have hn' := abs_lt.1 hn
  by_cases hX : (10 : ℝ) ^ X ≤ a
  · have hpos : 0 < a := lt_of_lt_of_le (zpow_pos h10 _) hX
    have hlog : Int.log 10 a = X := by
      apply le_antisymm
      · have := (Int.lt_zpow_iff_log_lt (b := 10) (x := X + 1) (by norm_num) hpos).1 (by
          push_cast; rw [ep]
          have : (m : ℝ) * (10 * q) ≤ (10 ^ 6 - 1) * (10 * q) := mul_le_mul_of_nonneg_right h2' (by positivity)
          nlinarith)
        omega
      · exact (Int.zpow_le_iff_le_log (b := 10) (x := X) (by norm_num) hpos).1 (by exact_mod_cast hX)
    have hr : NN.roundEven (a / (10 : ℝ) ^ (X - 5)) = (m : ℤ) := by
      apply roundEven_lt
      rw [e5]
      have : a / (10 * q) - ((m : ℤ) : ℝ) = (a - m * (10 * q)) / (10 * q) := by
        field_simp
        push_cast
        ring
      rw [this, abs_div, abs_of_pos (by positivity : (0 : ℝ) < 10 * q), div_lt_iff₀ (by positivity)]
      exact hn
    unfold sixDigits
    rw [hlog]
    simp only
    rw [hr, Int.toNat_natCast, if_neg (by omega)]
  · obtain ⟨rfl, hb⟩ := hb.resolve_left hX
    have hX' : a < (10 : ℝ) ^ X := not_le.1 hX
    rw [e0] at hb hX'
    have hpos : 0 < a := by nlinarith
    have hlog : Int.log 10 a = X - 1 := by
      apply le_antisymm
      · have := (Int.lt_zpow_iff_log_lt (b := 10) (x := X) (by norm_num) hpos).1 (by push_cast; rw [e0]; exact hX')
        omega
      · exact (Int.zpow_le_iff_le_log (b := 10) (x := X - 1) (by norm_num) hpos).1 (by push_cast; rw [em]; nlinarith)
    have hr : NN.roundEven (a / (10 : ℝ) ^ (X - 1 - 5)) = 10 ^ 6 := by
      apply roundEven_lt
      rw [show X - 1 - 5 = X - 6 by ring, ← hq]
      have : a / q - ((10 ^ 6 : ℤ) : ℝ) = (a - 10 ^ 6 * q) / q := by
        field_simp
        push_cast
        ring
      rw [this, abs_div, abs_of_pos hq0, div_lt_iff₀ hq0, abs_lt]
      constructor <;> linarith
    unfold sixDigits
    rw [hlog]
    simp only
    rw [hr, if_pos (by decide)]
    norm_num

/-- The digits of a number: how near it is. -/
theorem sixDigits_near {a : ℝ} (ha : 0 < a) :
    |a - (sixDigits a).1 * (10 : ℝ) ^ ((sixDigits a).2 - 5)| ≤ 1 / 2 * (10 : ℝ) ^ ((sixDigits a).2 - 5) ∧
      ((10 : ℝ) ^ (sixDigits a).2 ≤ a ∨ ((sixDigits a).1 = 10 ^ 5 ∧ (10 : ℝ) ^ (sixDigits a).2 - a ≤ 1 / 2 * (10 : ℝ) ^ ((sixDigits a).2 - 6))) := by
  have h10 : (0 : ℝ) < 10 := by norm_num
  set e := Int.log 10 a with he
  have hlo : (10 : ℝ) ^ e ≤ a := by exact_mod_cast Int.zpow_log_le_self (b := 10) (by norm_num) ha
  have hhi : a < (10 : ℝ) ^ (e + 1) := by exact_mod_cast Int.lt_zpow_succ_log_self (b := 10) (by norm_num) a
  have hupos : (0 : ℝ) < (10 : ℝ) ^ (e - 5) := zpow_pos h10 _
  have e1 : (10 : ℝ) ^ e = 10 ^ 5 * (10 : ℝ) ^ (e - 5) := ten_pow e 5
  have e2 : (10 : ℝ) ^ (e + 1) = 10 ^ 6 * (10 : ℝ) ^ (e - 5) := by
    have := ten_pow (e + 1) 6
    rw [show e + 1 - ((6 : ℕ) : ℤ) = e - 5 by push_cast; ring] at this
    exact this
  set u := (10 : ℝ) ^ (e - 5) with hu
  set x := a / u with hx
  have hax : a = x * u := by rw [hx]; field_simp
  have hx1 : ((10 ^ 5 : ℤ) : ℝ) ≤ x := by
    rw [hx, le_div_iff₀ hupos]; rw [e1] at hlo; push_cast; linarith
  have hx2 : x ≤ ((10 ^ 6 : ℤ) : ℝ) := by
    rw [hx, div_le_iff₀ hupos]; rw [e2] at hhi; push_cast; linarith
  have r1 := NN.roundEven_mono_int hx1
  have rd := NN.roundEven_dist x
  set m := (NN.roundEven x).toNat with hm
  have hmz : (m : ℤ) = NN.roundEven x := by rw [hm]; omega
  have hmr : (m : ℝ) = (NN.roundEven x : ℝ) := by rw [← hmz]; push_cast; rfl
  have herr : |a - m * u| ≤ 1 / 2 * u := by
    rw [hax, ← sub_mul, abs_mul, abs_of_pos hupos, hmr, abs_sub_comm]
    exact mul_le_mul_of_nonneg_right rd hupos.le
  have hs : sixDigits a = if m = 10 ^ 6 then (10 ^ 5, e + 1) else (m, e) := rfl
  rw [hs]
  split
  · rename_i h
    simp only
    rw [h] at herr
    push_cast at herr
    have e4 : (10 : ℝ) ^ (e + 1 - 5) = 10 * u := by
      have := ten_pow (e + 1 - 5) 1
      rw [show e + 1 - 5 - ((1 : ℕ) : ℤ) = e - 5 by push_cast; ring] at this
      rw [this, hu]; norm_num
    rw [e4, e2, show e + 1 - 6 = e - 5 by ring, ← hu]
    obtain ⟨h1, h2⟩ := abs_le.1 herr
    refine ⟨?_, .inr ⟨trivial, by linarith⟩⟩
    rw [abs_le]
    push_cast
    constructor <;> nlinarith
  · exact ⟨herr, .inl hlo⟩

/-! ## A `double` through text -/

/-- The distance of doubles at `X = -318`, in units of `2^-1074`. -/
theorem ten318 : (2024022 / 10 : ℝ) * 2 ^ (-1074 : ℤ) < (10 : ℝ) ^ (-318 : ℤ) ∧ (10 : ℝ) ^ (-318 : ℤ) < (2024023 / 10 : ℝ) * 2 ^ (-1074 : ℤ) := by
  have h2 : (2 : ℝ) ^ (-1074 : ℤ) = ((2 : ℝ) ^ 179)⁻¹ ^ 6 := by rw [inv_pow, ← pow_mul, zpow_neg]; norm_cast
  have h10 : (10 : ℝ) ^ (-318 : ℤ) = ((10 : ℝ) ^ 159)⁻¹ ^ 2 := by rw [inv_pow, ← pow_mul, zpow_neg]; norm_cast
  rw [h2, h10]
  constructor <;> norm_num

theorem ten_dvd {X Y : ℤ} (h : X ≤ Y) : (10 : ℝ) ^ X ≤ (10 : ℝ) ^ Y := zpow_le_zpow_right₀ (by norm_num) h

theorem expo_pos {x : ℝ} (hx : 0 < x) : (2 : ℝ) ^ expo x ≤ max (x / 2 ^ 52) (2 ^ (-1074 : ℤ)) := by
  unfold expo
  rw [abs_of_pos hx]
  rcases le_total (Int.log 2 x - 52) (-1074) with h | h
  · rw [max_eq_right h]; exact le_max_right _ _
  · rw [max_eq_left h]
    refine le_trans ?_ (le_max_left _ _)
    rw [zpow_sub₀ (by norm_num)]
    have := log_le hx
    exact div_le_div_of_nonneg_right this (by positivity)

theorem r64_half (x : ℝ) : |r64 x - x| ≤ 1 / 2 * 2 ^ expo x := by
  have hq := two_zpow_pos (expo x)
  have h := mul_le_mul_of_nonneg_right (roundEven_near (x / 2 ^ expo x)) hq.le
  rw [← abs_of_pos hq, ← abs_mul, abs_of_pos hq, sub_mul, div_mul_cancel₀ _ hq.ne'] at h
  exact h

/-- A number of the grid nearer than half of its distance. -/
theorem r64_grid_near {x : ℝ} {n : ℤ} (hx : 0 < x) (hn : |n| ≤ 2 ^ 53) (h : |x - n * 2 ^ (-1074 : ℤ)| < 1 / 2 * 2 ^ (-1074 : ℤ)) : r64 x = n * 2 ^ (-1074 : ℤ) := by
  have h1 := r64_nearest (x := x) (r64_exact (n := n) (e := -1074) hn (le_refl _))
  obtain ⟨k, hk⟩ := r64_grid x
  have hq := two_zpow_pos (-1074)
  have h2 : |((k - n : ℤ) : ℝ)| * 2 ^ (-1074 : ℤ) < 1 * 2 ^ (-1074 : ℤ) := by
    rw [← abs_of_pos hq, ← abs_mul, abs_of_pos hq]
    push_cast
    rw [sub_mul, ← hk]
    calc |r64 x - n * 2 ^ (-1074 : ℤ)| = |(r64 x - x) + (x - n * 2 ^ (-1074 : ℤ))| := by ring_nf
      _ ≤ |r64 x - x| + |x - n * 2 ^ (-1074 : ℤ)| := abs_add_le _ _
      _ < 1 * 2 ^ (-1074 : ℤ) := by rw [abs_sub_comm x] at *; linarith
  have h3 : k - n = 0 := by
    have := lt_of_mul_lt_mul_right h2 hq.le
    have : |k - n| < 1 := by exact_mod_cast this
    exact Int.abs_lt_one_iff.1 this
  rw [hk, show k = n by omega]

theorem ten_exp {X Y : ℤ} (k : ℕ) (h : X = Y + k) : (10 : ℝ) ^ X = 10 ^ k * (10 : ℝ) ^ Y := by
  rw [ten_pow X k, h]; congr 2; ring

theorem two971 : (2 : ℝ) ^ (971 : ℤ) = ((2 : ℝ) ^ 194) ^ 5 * 2 := by
  rw [← pow_mul, ← pow_succ, ← zpow_natCast]
  rfl

/-- The value of six digits is not larger than the largest double. -/
theorem sixDigits_max {r : ℝ} (hr : 0 < r) (hlt : r < overflow) : ((sixDigits r).1 : ℝ) * (10 : ℝ) ^ ((sixDigits r).2 - 5) ≤ dblMax := by
  obtain ⟨h1, h2, -⟩ := sixDigits_spec hr
  obtain ⟨h3, h4⟩ := sixDigits_near hr
  set m := (sixDigits r).1
  set X := (sixDigits r).2
  have hov : overflow < 1797695 * (10 : ℝ) ^ (302 : ℤ) := by
    unfold overflow
    rw [show (10 : ℝ) ^ (302 : ℤ) = ((10 : ℝ) ^ 151) ^ 2 by rw [← pow_mul]; norm_cast, show (2 : ℝ) ^ 1024 = ((2 : ℝ) ^ 128) ^ 8 by rw [← pow_mul]]
    norm_num
  have hmax : 179769 * (10 : ℝ) ^ (303 : ℤ) ≤ dblMax := by
    unfold dblMax
    rw [show (10 : ℝ) ^ (303 : ℤ) = ((10 : ℝ) ^ 101) ^ 3 by rw [← pow_mul]; norm_cast, two971]
    norm_num
  refine le_trans ?_ hmax
  have hm6 : (m : ℝ) ≤ 999999 := by
    have : m ≤ 999999 := by omega
    exact_mod_cast this
  have hm5 : (100000 : ℝ) ≤ m := by
    have : 100000 ≤ m := h1
    exact_mod_cast this
  have e303 : (10 : ℝ) ^ (303 : ℤ) = 10 * (10 : ℝ) ^ (302 : ℤ) := by rw [ten_exp (X := 303) (Y := 302) 1 (by norm_num), pow_one]
  have e304 : (10 : ℝ) ^ (304 : ℤ) = 100 * (10 : ℝ) ^ (302 : ℤ) := by rw [ten_exp (X := 304) (Y := 302) 2 (by norm_num)]; norm_num
  have c0 : (0 : ℝ) < (10 : ℝ) ^ (302 : ℤ) := by positivity
  have hm0 : 0 < (m : ℝ) := by linarith
  rcases lt_trichotomy X 308 with hX | hX | hX
  · have e : (10 : ℝ) ^ (X - 5) ≤ (10 : ℝ) ^ (302 : ℤ) := ten_dvd (by omega)
    rw [e303]
    clear hmax e304 e303
    generalize (10 : ℝ) ^ (302 : ℤ) = c at *
    have := mul_le_mul_of_nonneg_left e hm0.le
    nlinarith
  · rw [hX] at h3 ⊢
    rw [show (308 : ℤ) - 5 = 303 by norm_num] at h3 ⊢
    have h5 := (abs_le.1 h3).1
    rw [e303] at h5 ⊢
    clear hmax e304 e303 h3
    generalize (10 : ℝ) ^ (302 : ℤ) = c at *
    have hmlt : (m : ℝ) < 179770 := by
      by_contra hc
      have := mul_le_mul_of_nonneg_right (not_lt.1 hc) c0.le
      nlinarith
    have : m ≤ 179769 := by
      have : m < 179770 := by exact_mod_cast hmlt
      omega
    have : (m : ℝ) ≤ 179769 := by exact_mod_cast this
    exact mul_le_mul_of_nonneg_right this (by positivity)
  · exfalso
    have e : (10 : ℝ) ^ (304 : ℤ) ≤ (10 : ℝ) ^ (X - 5) := ten_dvd (by omega)
    have h5 := (abs_le.1 h3).1
    rw [e304] at e
    clear hmax e304 e303
    generalize (10 : ℝ) ^ (302 : ℤ) = c at *
    generalize (10 : ℝ) ^ (X - 5) = d at *
    have := mul_le_mul_of_nonneg_right hm5 (show 0 ≤ d by linarith)
    nlinarith

/-- The one positive double that prints differently after it was printed and read. -/
def Spec.odd : ℝ := 202403 * 2 ^ (-1074 : ℤ)

/-- Six digits of a positive double, read as a double, printed again. -/
theorem six_stable {r : ℝ} (hr : 0 < r) (hd : r64 r = r) :
    (r ≠ Spec.odd → sixDigits (r64 ((sixDigits r).1 * (10 : ℝ) ^ ((sixDigits r).2 - 5))) = sixDigits r) ∧
    (r = Spec.odd → sixDigits r = (10 ^ 5, -318) ∧ sixDigits (r64 ((sixDigits r).1 * (10 : ℝ) ^ ((sixDigits r).2 - 5))) = (999999, -319)) := by
  obtain ⟨h1, h2, -⟩ := sixDigits_spec hr
  obtain ⟨h3, h4⟩ := sixDigits_near hr
  obtain ⟨t1, t2⟩ := ten318
  have hq := two_zpow_pos (-1074)
  set q := (2 : ℝ) ^ (-1074 : ℤ) with hqd
  have hodd : Spec.odd = 202403 * q := rfl
  have hoddsix : sixDigits (202403 * q) = (10 ^ 5, -318) := by
    refine sixDigits_of_near (le_refl _) (by norm_num) ?_ (.inl ?_)
    · have e : (10 : ℝ) ^ (-318 : ℤ) = 10 ^ 5 * (10 : ℝ) ^ ((-318 : ℤ) - 5) := ten_pow _ 5
      rw [show ((10 ^ 5 : ℕ) : ℝ) = 10 ^ 5 by norm_num, ← e]
      have c0 : (0 : ℝ) < (10 : ℝ) ^ ((-318 : ℤ) - 5) := by positivity
      generalize (10 : ℝ) ^ ((-318 : ℤ) - 5) = c at *
      generalize (10 : ℝ) ^ (-318 : ℤ) = d at *
      rw [abs_lt]
      constructor <;> nlinarith
    · linarith
  have hlow : r64 ((10 : ℝ) ^ (-318 : ℤ)) = 202402 * q := by
    have := r64_grid_near (x := (10 : ℝ) ^ (-318 : ℤ)) (n := 202402) (by positivity) (by norm_num) (by
      rw [← hqd, abs_lt]
      push_cast
      constructor <;> linarith)
    rw [this]
    push_cast
    rfl
  refine ⟨fun hne => ?_, fun heq => ?_⟩
  swap
  · rw [heq, hodd, hoddsix]
    refine ⟨rfl, ?_⟩
    have e : (10 : ℝ) ^ (-318 : ℤ) = 10 ^ 5 * (10 : ℝ) ^ ((-318 : ℤ) - 5) := ten_pow _ 5
    rw [show ((10 ^ 5 : ℕ) : ℝ) = 10 ^ 5 by norm_num, ← e, hlow]
    have e6 : (10 : ℝ) ^ (-318 : ℤ) = 10 ^ 6 * (10 : ℝ) ^ ((-319 : ℤ) - 5) := ten_exp 6 (by norm_num)
    refine sixDigits_of_near (by norm_num) (by norm_num) ?_ (.inl ?_)
    · rw [show ((999999 : ℕ) : ℝ) = 999999 by norm_num]
      have c0 : (0 : ℝ) < (10 : ℝ) ^ ((-319 : ℤ) - 5) := by positivity
      generalize (10 : ℝ) ^ ((-319 : ℤ) - 5) = c at *
      generalize (10 : ℝ) ^ (-318 : ℤ) = d at *
      rw [abs_lt]
      constructor <;> nlinarith
    · have e1 : (10 : ℝ) ^ (-318 : ℤ) = 10 ^ 1 * (10 : ℝ) ^ (-319 : ℤ) := ten_exp 1 (by norm_num)
      have c0 : (0 : ℝ) < (10 : ℝ) ^ (-319 : ℤ) := by positivity
      generalize (10 : ℝ) ^ (-319 : ℤ) = c at *
      generalize (10 : ℝ) ^ (-318 : ℤ) = d at *
      nlinarith
  · set m := (sixDigits r).1 with hm
    set X := (sixDigits r).2 with hX
    have hmX : sixDigits r = (m, X) := rfl
    have hm6 : (m : ℝ) ≤ 999999 := by
      have : m ≤ 999999 := by omega
      exact_mod_cast this
    have hm5 : (10 : ℝ) ^ 5 ≤ m := by exact_mod_cast h1
    have e56 : (10 : ℝ) ^ (X - 5) = 10 * (10 : ℝ) ^ (X - 6) := by
      have := ten_pow (X - 5) 1
      rw [show X - 5 - ((1 : ℕ) : ℤ) = X - 6 by push_cast; ring] at this
      rw [this]; norm_num
    have e06 : (10 : ℝ) ^ X = 10 ^ 6 * (10 : ℝ) ^ (X - 6) := ten_pow X 6
    set p := (10 : ℝ) ^ (X - 6) with hp
    have hp0 : 0 < p := by positivity
    rw [e56] at h3 ⊢
    have hD0 : 0 < (m : ℝ) * (10 * p) := by positivity
    rw [hmX]
    by_cases hXc : -317 ≤ X
    · -- the doubles are dense enough
      have hqp : q < p := by
        have : (10 : ℝ) ^ (-323 : ℤ) ≤ p := ten_dvd (by omega)
        have e5 : (10 : ℝ) ^ (-318 : ℤ) = 10 ^ 5 * (10 : ℝ) ^ (-323 : ℤ) := ten_exp 5 (by norm_num)
        nlinarith
      have hsp : (2 : ℝ) ^ expo ((m : ℝ) * (10 * p)) < p := by
        refine (expo_pos hD0).trans_lt (max_lt ?_ hqp)
        rw [div_lt_iff₀ (by positivity)]
        nlinarith
      have hh := (r64_half ((m : ℝ) * (10 * p))).trans_lt (mul_lt_mul_of_pos_left hsp (by norm_num : (0 : ℝ) < 1 / 2))
      obtain ⟨a1, a2⟩ := abs_lt.1 hh
      refine sixDigits_of_near h1 h2 ?_ ?_
      · rw [e56, abs_lt]; constructor <;> linarith
      · rcases Nat.eq_or_lt_of_le h1 with he | hlt
        · refine .inr ⟨he.symm, ?_⟩
          rw [← hp, e06]
          have : (m : ℝ) = 10 ^ 5 := by rw [← he]; norm_num
          rw [this] at a1 ⊢
          linarith
        · refine .inl ?_
          rw [e06]
          have : (10 : ℝ) ^ 5 + 1 ≤ m := by exact_mod_cast hlt
          nlinarith
    · by_cases hX8 : X = -318
      · have hp8 : (10 : ℝ) ^ (-318 : ℤ) = 10 ^ 6 * p := by rw [← e06, hX8]
        rw [hp8] at t1 t2 hlow
        rcases Nat.eq_or_lt_of_le h1 with he | hlt
        · exfalso
          -- the only double that prints as 1e-318
          have hmv : (m : ℝ) = 10 ^ 5 := by rw [← he]; norm_num
          rw [hmv] at h3
          obtain ⟨n, hn⟩ := r64_grid r
          rw [hd, ← hqd] at hn
          obtain ⟨b1, b2⟩ := abs_le.1 h3
          have hlo : (10 : ℝ) ^ 6 * p - r ≤ 1 / 2 * p := by
            rcases h4 with h | ⟨-, h⟩
            · rw [e06] at h; linarith
            · rw [e06] at h; exact h
          have n1 : (202402 : ℝ) < n := by
            rw [hn] at hlo
            by_contra hc
            have : (n : ℝ) ≤ 202402 := not_lt.1 hc
            nlinarith
          have n2 : (n : ℝ) < 202404 := by
            rw [hn] at b2
            by_contra hc
            have : (202404 : ℝ) ≤ n := not_lt.1 hc
            nlinarith
          have n1' : (202402 : ℤ) < n := by exact_mod_cast n1
          have n2' : n < (202404 : ℤ) := by exact_mod_cast n2
          have : n = 202403 := by omega
          apply hne
          rw [hn, this, hodd]
          norm_num
        · have hlt' : (10 : ℝ) ^ 5 + 1 ≤ m := by exact_mod_cast hlt
          have hsp : (2 : ℝ) ^ expo ((m : ℝ) * (10 * p)) ≤ q := by
            refine (expo_pos hD0).trans (max_le ?_ (le_refl _))
            rw [div_le_iff₀ (by positivity)]
            nlinarith
          have hh := (r64_half ((m : ℝ) * (10 * p))).trans (mul_le_mul_of_nonneg_left hsp (by norm_num : (0 : ℝ) ≤ 1 / 2))
          obtain ⟨a1, a2⟩ := abs_le.1 hh
          refine sixDigits_of_near h1 h2 ?_ (.inl ?_)
          · rw [e56, abs_lt]; constructor <;> nlinarith
          · rw [e06]
            nlinarith
      · -- the double is the only one near its six digits
        have hpq : 10 * p < q := by
          have : p ≤ (10 : ℝ) ^ (-325 : ℤ) := ten_dvd (by omega)
          have e5 : (10 : ℝ) ^ (-318 : ℤ) = 10 ^ 7 * (10 : ℝ) ^ (-325 : ℤ) := ten_exp 7 (by norm_num)
          nlinarith
        obtain ⟨n, hn⟩ := r64_grid r
        rw [hd, ← hqd] at hn
        have hr' : r < 2 ^ 53 * q := by
          have := (abs_le.1 h3).2
          nlinarith
        have := r64_grid_near (x := (m : ℝ) * (10 * p)) (n := n) hD0 (by
          have h53 : |(n : ℝ)| * q < 2 ^ 53 * q := by
            rw [← abs_of_pos hq, ← abs_mul, abs_of_pos hq, ← hn, abs_of_pos hr]
            exact hr'
          have := lt_of_mul_lt_mul_right h53 hq.le
          have h54 : |n| < 2 ^ 53 := by exact_mod_cast this
          exact h54.le) (by
          rw [← hqd, ← hn, abs_sub_comm]
          refine h3.trans_lt ?_
          linarith)
        rw [this, ← hqd, ← hn]

end
end Nnet.NN.Flt.B64
