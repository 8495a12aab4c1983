import Verif.NN.Text
import Mathlib.Tactic.IntervalCases
import Mathlib.Tactic.Ring
import Mathlib.Tactic.Linarith
import Mathlib.Tactic.FieldSimp
import Mathlib.Tactic.NormNum
/-!
# Lemmas about the decimal text of numbers
-/
namespace Nnet.NN
noncomputable section

/-- Value of a list of digits. -/
def val (ds : List Nat) : Nat := ds.foldl (fun acc d => 10 * acc + d) 0

theorem foldl_val (l : List Nat) (a : Nat) : l.foldl (fun acc d => 10 * acc + d) a = a * 10 ^ l.length + val l := by
  unfold val
  induction l using List.reverseRecOn generalizing a with
  | nil => simp
  | append_singleton l d ih =>
    rw [List.foldl_append, List.foldl_append, ih]
    simp only [List.foldl_cons, List.foldl_nil, List.length_append, List.length_singleton, pow_succ]
    ring

theorem val_append (a b : List Nat) : val (a ++ b) = val a * 10 ^ b.length + val b := by
  rw [val, List.foldl_append, foldl_val]
  rfl

theorem val_nil : val [] = 0 := rfl
theorem val_singleton (d : Nat) : val [d] = d := by simp [val]

theorem val_replicate_zero (k : Nat) : val (List.replicate k 0) = 0 := by
  induction k with
  | zero => rfl
  | succ k ih => rw [List.replicate_succ', val_append, ih, val_singleton, Nat.zero_mul]

theorem digitsN_length : ∀ w m, (digitsN w m).length = w
  | 0, _ => rfl
  | w + 1, m => by rw [digitsN, List.length_append, digitsN_length w]; rfl

theorem digitsN_lt : ∀ w m, ∀ d ∈ digitsN w m, d < 10
  | 0, _ => by simp [digitsN]
  | w + 1, m => by
    intro d hd
    rw [digitsN, List.mem_append, List.mem_singleton] at hd
    rcases hd with hd | rfl
    · exact digitsN_lt w _ d hd
    · exact Nat.mod_lt _ (by omega)

theorem val_digitsN : ∀ w m, val (digitsN w m) = m % 10 ^ w
  | 0, m => by rw [digitsN, val_nil, pow_zero, Nat.mod_one]
  | w + 1, m => by
    rw [digitsN, val_append, val_digitsN w, val_singleton, List.length_singleton, pow_one, pow_succ, Nat.mul_comm (10 ^ w) 10, Nat.mod_mul]
    ring

theorem val_expDigits (n : Nat) : val (expDigits n) = n := by
  rw [expDigits, val_digitsN]
  refine Nat.mod_eq_of_lt (lt_of_lt_of_le (Nat.lt_pow_succ_log_self (b := 10) (by norm_num) n) ?_)
  exact Nat.pow_le_pow_right (by norm_num) (le_max_right _ _)

theorem expDigits_ne (n : Nat) : expDigits n ≠ [] := by
  intro h
  have := congrArg List.length h
  rw [expDigits, digitsN_length] at this
  simp at this

/-! ### Characters -/

theorem digitChar_digit {d : Nat} (h : d < 10) : charDigit (digitChar d) = true := by
  interval_cases d <;> decide

theorem digitChar_val {d : Nat} (h : d < 10) : (digitChar d).toNat - 48 = d := by
  interval_cases d <;> decide

theorem digit_not {c : Char} (h : charDigit c = true) : c ≠ '-' ∧ c ≠ '+' ∧ c ≠ '.' ∧ c ≠ 'e' ∧ c ≠ 'E' ∧ isSpace c = false := by
  refine ⟨?_, ?_, ?_, ?_, ?_, ?_⟩
  · rintro rfl; revert h; decide
  · rintro rfl; revert h; decide
  · rintro rfl; revert h; decide
  · rintro rfl; revert h; decide
  · rintro rfl; revert h; decide
  · unfold isSpace
    rw [decide_eq_false_iff_not]
    rintro (rfl | rfl | rfl | rfl | rfl | rfl) <;> revert h <;> decide

theorem decVal_map (ds : List Nat) (h : ∀ d ∈ ds, d < 10) : decVal (ds.map digitChar) = val ds := by
  unfold decVal val
  rw [List.foldl_map]
  refine List.foldl_ext _ _ 0 ?_
  intro a b hb
  rw [digitChar_val (h b hb)]

theorem all_digit (ds : List Nat) (h : ∀ d ∈ ds, d < 10) : ∀ c ∈ ds.map digitChar, charDigit c = true := by
  intro c hc
  obtain ⟨d, hd, rfl⟩ := List.mem_map.1 hc
  exact digitChar_digit (h d hd)

/-! ### What `in >>` takes -/

/-- The automaton after a whole text. -/
def runNum : NumState → List Char → Option NumState
  | s, [] => some s
  | s, c :: cs => (s.step c).bind (fun s' => runNum s' cs)

theorem runNum_append : ∀ (a b : List Char) (s : NumState), runNum s (a ++ b) = (runNum s a).bind (fun s' => runNum s' b)
  | [], b, s => rfl
  | c :: a, b, s => by
    show (s.step c).bind (fun s' => runNum s' (a ++ b)) = ((s.step c).bind (fun s' => runNum s' a)).bind _
    cases s.step c with
    | none => rfl
    | some s' => exact runNum_append a b s'

theorem takeNumber_run : ∀ (cs : List Char) (s : NumState), (runNum s cs).isSome = true → takeNumber s cs = (cs, [])
  | [], _, _ => rfl
  | c :: cs, s, h => by
    unfold takeNumber
    unfold runNum at h
    cases hs : s.step c with
    | none => rw [hs] at h; simp at h
    | some s' =>
      rw [hs] at h
      simp only
      rw [takeNumber_run cs s' h]

theorem step_digit {s : NumState} {c : Char} (h : charDigit c = true) :
    s.step c = some { s with start := false, mantissa := s.mantissa || !s.sci, afterE := false } := by
  obtain ⟨h1, h2, -⟩ := digit_not h
  unfold NumState.step
  rw [if_neg (by rintro (h | h) <;> contradiction), if_pos (by simpa [charDigit] using h)]

theorem run_digits : ∀ (cs : List Char) (s : NumState), (∀ c ∈ cs, charDigit c = true) → cs ≠ [] →
    runNum s cs = some { s with start := false, mantissa := s.mantissa || !s.sci, afterE := false }
  | [], _, _, h => absurd rfl h
  | [c], s, h, _ => by
    show (s.step c).bind _ = _
    rw [step_digit (h c (by simp))]
    rfl
  | c :: c' :: cs, s, h, _ => by
    show (s.step c).bind _ = _
    rw [step_digit (h c (by simp)), Option.bind_some, run_digits (c' :: cs) _ (fun d hd => h d (by simp at hd ⊢; tauto)) (by simp)]
    simp only [Bool.or_assoc, Bool.or_self]

theorem run_decText (neg : Bool) {ip fp : List Nat} (ex : Option Int) (hip : ip ≠ []) (h1 : ∀ d ∈ ip, d < 10) (h2 : ∀ d ∈ fp, d < 10) :
    (runNum .init (decText neg ip fp ex)).isSome = true := by
  unfold decText
  rw [runNum_append, runNum_append, runNum_append]
  have hs : ∃ b, runNum .init (if neg then ['-'] else []) = some ⟨b, false, false, false, false⟩ := by
    cases neg
    · exact ⟨true, rfl⟩
    · exact ⟨false, rfl⟩
  obtain ⟨b, hb⟩ := hs
  rw [hb, Option.bind_some, run_digits _ _ (all_digit ip h1) (by simpa using hip), Option.bind_some]
  have hf : ∃ b, runNum ⟨false, true, false, false, false⟩ (if fp = [] then [] else '.' :: fp.map digitChar) = some ⟨false, true, b, false, false⟩ := by
    by_cases hfp : fp = []
    · rw [if_pos hfp]
      exact ⟨false, rfl⟩
    · rw [if_neg hfp]
      refine ⟨true, ?_⟩
      show (NumState.step _ '.').bind _ = _
      rw [show NumState.step ⟨false, true, false, false, false⟩ '.' = some ⟨false, true, true, false, false⟩ from rfl, Option.bind_some,
        run_digits _ _ (all_digit fp h2) (by simpa using hfp)]
      rfl
  obtain ⟨p, hp⟩ := hf
  simp only [Bool.false_or, Bool.not_false, Bool.true_or] at hp ⊢
  rw [hp, Option.bind_some]
  cases ex with
  | none => rfl
  | some e =>
    show ((NumState.step _ 'e').bind _).isSome = true
    rw [show NumState.step ⟨false, true, p, false, false⟩ 'e' = some ⟨false, true, p, true, true⟩ from by cases p <;> rfl, Option.bind_some]
    show ((NumState.step _ _).bind _).isSome = true
    have : NumState.step ⟨false, true, p, true, true⟩ (if e < 0 then '-' else '+') = some ⟨false, true, p, true, false⟩ := by
      split <;> (cases p <;> rfl)
    rw [this, Option.bind_some, run_digits _ _ (all_digit (expDigits e.natAbs) (digitsN_lt _ _)) (by simpa using expDigits_ne _)]
    rfl

/-! ### What `strtod` makes of it -/

theorem parseSign_digit {cs : List Char} (h : ∀ c ∈ cs.head?, charDigit c = true) : parseSign cs = (false, cs) := by
  cases cs with
  | nil => rfl
  | cons c cs =>
    obtain ⟨h1, h2, -⟩ := digit_not (h c (by simp))
    unfold parseSign
    simp only
    rw [if_neg h1, if_neg h2]

theorem takeWhile_append_stop {p : Char → Bool} {a b : List Char} (ha : ∀ c ∈ a, p c = true) (hb : ∀ c ∈ b.head?, p c = false) :
    (a ++ b).takeWhile p = a ∧ (a ++ b).dropWhile p = b := by
  induction a with
  | nil =>
    cases b with
    | nil => exact ⟨rfl, rfl⟩
    | cons c b =>
      have := hb c (by simp)
      simp [this]
  | cons c a ih =>
    have hc := ha c (by simp)
    obtain ⟨i1, i2⟩ := ih (fun d hd => ha d (by simp [hd]))
    simp [hc, i1, i2]

theorem strtod_decText (neg : Bool) {ip fp : List Nat} (ex : Option Int) (hip : ip ≠ []) (h1 : ∀ d ∈ ip, d < 10) (h2 : ∀ d ∈ fp, d < 10) :
    strtod (decText neg ip fp ex) =
      ((if neg then -1 else 1) * (val (ip ++ fp) : ℝ) * (10 : ℝ) ^ (ex.getD 0 - fp.length), true) := by
  set E : List Char := expText ex with hE
  set F : List Char := (if fp = [] then [] else '.' :: fp.map digitChar) with hF
  have hEhead : ∀ c ∈ E.head?, charDigit c = false ∧ c ≠ '.' := by
    intro c hc
    rw [hE] at hc
    cases ex with
    | none => simp [expText] at hc
    | some e => simp [expText] at hc; subst hc; decide
  have hsign : parseSign (decText neg ip fp ex) = (neg, ip.map digitChar ++ (F ++ E)) := by
    unfold decText
    rw [← hE, ← hF, List.append_assoc, List.append_assoc]
    cases neg with
    | true => rfl
    | false =>
      refine parseSign_digit ?_
      intro c hc
      obtain ⟨d, ds, rfl⟩ := List.exists_cons_of_ne_nil hip
      simp at hc
      subst hc
      exact digitChar_digit (h1 d (by simp))
  have hip' := takeWhile_append_stop (p := charDigit) (a := ip.map digitChar) (b := F ++ E) (all_digit ip h1) (by
    intro c hc
    rw [hF] at hc
    by_cases hfp : fp = []
    · rw [if_pos hfp, List.nil_append] at hc
      exact (hEhead c hc).1
    · rw [if_neg hfp] at hc
      simp at hc
      subst hc
      decide)
  have hfrac : parseFrac (F ++ E) = (fp.map digitChar, E) := by
    rw [hF]
    by_cases hfp : fp = []
    · rw [if_pos hfp, List.nil_append, hfp]
      cases hEc : E with
      | nil => rfl
      | cons c cs =>
        have := (hEhead c (by rw [hEc]; simp)).2
        unfold parseFrac
        simp only
        rw [if_neg this]
        rfl
    · rw [if_neg hfp, List.cons_append]
      unfold parseFrac
      simp only
      rw [if_pos trivial]
      have := takeWhile_append_stop (p := charDigit) (a := fp.map digitChar) (b := E) (all_digit fp h2) (fun c hc => (hEhead c hc).1)
      rw [this.1, this.2]
  have hexp : parseExp E = some (ex.getD 0) := by
    rw [hE]
    cases ex with
    | none => rfl
    | some e =>
      simp only [Option.getD_some]
      unfold expText parseExp
      simp only
      rw [if_pos (Or.inl trivial)]
      have hd : ∀ d ∈ expDigits e.natAbs, d < 10 := digitsN_lt _ _
      have hall : ((expDigits e.natAbs).map digitChar).all charDigit = true := List.all_eq_true.2 (all_digit (expDigits e.natAbs) hd)
      have hne : (expDigits e.natAbs).map digitChar ≠ [] := by simpa using expDigits_ne _
      have hv : decVal ((expDigits e.natAbs).map digitChar) = e.natAbs := by rw [decVal_map _ hd, val_expDigits]
      by_cases he : e < 0
      · rw [if_pos he]
        have : parseSign ('-' :: (expDigits e.natAbs).map digitChar) = (true, (expDigits e.natAbs).map digitChar) := rfl
        rw [this]
        simp only
        rw [if_neg (by rw [hall]; simp only [Bool.true_eq_false, or_false]; exact hne), hv]
        simp only [if_true]
        congr 1
        omega
      · rw [if_neg he]
        have : parseSign ('+' :: (expDigits e.natAbs).map digitChar) = (false, (expDigits e.natAbs).map digitChar) := rfl
        rw [this]
        simp only
        rw [if_neg (by rw [hall]; simp only [Bool.true_eq_false, or_false]; exact hne), hv]
        simp only [Bool.false_eq_true, if_false]
        congr 1
        omega
  unfold strtod
  rw [hsign]
  simp only
  rw [hip'.1, hip'.2, hfrac]
  simp only
  rw [if_neg (fun h => hip (by simpa using h.1)), hexp]
  simp only
  rw [← List.map_append, decVal_map _ (by intro d hd; rw [List.mem_append] at hd; exact hd.elim (h1 d) (h2 d)), List.length_map]

/-! ### Trailing zeros -/

theorem strip_append (ds : List Nat) : ∃ k, ds = strip ds ++ List.replicate k 0 := by
  induction ds using List.reverseRecOn with
  | nil => exact ⟨0, rfl⟩
  | append_singleton l d ih =>
    by_cases hd : d = 0
    · obtain ⟨k, hk⟩ := ih
      refine ⟨k + 1, ?_⟩
      unfold strip at hk ⊢
      rw [List.rdropWhile_concat_pos _ _ _ (by simpa using hd), List.replicate_succ', ← List.append_assoc, ← hk, hd]
    · refine ⟨0, ?_⟩
      unfold strip
      rw [List.rdropWhile_concat_neg _ _ _ (by simpa using hd)]
      simp

theorem strip_mem {ds : List Nat} {d : Nat} (h : d ∈ strip ds) : d ∈ ds := (List.rdropWhile_prefix _ _).subset h

/-- Leaving out trailing zeros of the fraction does not change the number. -/
theorem val_strip (ip ds : List Nat) (E : Int) :
    (val (ip ++ strip ds) : ℝ) * (10 : ℝ) ^ (E - ((strip ds).length : ℤ)) = (val (ip ++ ds) : ℝ) * (10 : ℝ) ^ (E - (ds.length : ℤ)) := by
  obtain ⟨k, hk⟩ := strip_append ds
  have h1 : val (ip ++ ds) = val (ip ++ strip ds) * 10 ^ k := by
    conv_lhs => rw [hk, ← List.append_assoc, val_append, val_replicate_zero, List.length_replicate]
    ring
  have h2 : ds.length = (strip ds).length + k := by
    conv_lhs => rw [hk, List.length_append, List.length_replicate]
  rw [h1, h2]
  push_cast
  rw [mul_assoc, ← zpow_natCast, ← zpow_add₀ (by norm_num)]
  congr 2
  ring

/-! ### Rounding -/

theorem roundEven_dist (x : ℝ) : |(roundEven x : ℝ) - x| ≤ 1 / 2 := by
  have h0 := Int.floor_add_fract x
  have h1 := Int.fract_nonneg x
  have h2 := Int.fract_lt_one x
  unfold roundEven
  rw [abs_le]
  split_ifs <;> push_cast <;> constructor <;> linarith

theorem roundEven_int (n : ℤ) : roundEven (n : ℝ) = n := by
  unfold roundEven
  rw [Int.fract_intCast, if_pos (by norm_num), Int.floor_intCast]

theorem roundEven_mono_int {x : ℝ} {n : ℤ} (h : (n : ℝ) ≤ x) : n ≤ roundEven x := by
  have hf : n ≤ ⌊x⌋ := Int.le_floor.2 h
  unfold roundEven
  split_ifs <;> omega

theorem roundEven_le_int {x : ℝ} {n : ℤ} (h : x ≤ (n : ℝ)) : roundEven x ≤ n := by
  have h0 := Int.floor_add_fract x
  have h1 := Int.fract_nonneg x
  have hf : ⌊x⌋ ≤ n := by exact_mod_cast (Int.floor_le x).trans h
  rcases hf.lt_or_eq with hlt | heq
  · unfold roundEven
    split_ifs <;> omega
  · have hx : x = n := le_antisymm h (by rw [← heq]; exact Int.floor_le x)
    rw [hx, roundEven_int]

theorem sixDigits_spec {a : ℝ} (ha : 0 < a) :
    10 ^ 5 ≤ (sixDigits a).1 ∧ (sixDigits a).1 < 10 ^ 6 ∧
      |((sixDigits a).1 : ℝ) * (10 : ℝ) ^ ((sixDigits a).2 - 5) - a| ≤ 5 * (10 : ℝ) ^ (-6 : ℤ) * a := by
  have h10 : (0 : ℝ) < 10 := by norm_num
  set e := Int.log 10 a with he
  have hlo : (10 : ℝ) ^ e ≤ a := by exact_mod_cast Int.zpow_log_le_self (b := 10) (by norm_num) ha
  have hhi : a < (10 : ℝ) ^ (e + 1) := by exact_mod_cast Int.lt_zpow_succ_log_self (b := 10) (by norm_num) a
  set u := (10 : ℝ) ^ (e - 5) with hu
  have hupos : 0 < u := zpow_pos h10 _
  have e1 : (10 : ℝ) ^ e = 10 ^ 5 * u := by
    rw [hu, ← zpow_natCast, ← zpow_add₀ h10.ne']; congr 1; push_cast; ring
  have e2 : (10 : ℝ) ^ (e + 1) = 10 ^ 6 * u := by
    rw [hu, ← zpow_natCast, ← zpow_add₀ h10.ne']; congr 1; push_cast; ring
  set x := a / u with hx
  have hax : a = x * u := by rw [hx]; field_simp
  have hx1 : ((10 ^ 5 : ℤ) : ℝ) ≤ x := by
    rw [hx, le_div_iff₀ hupos]; rw [e1] at hlo; push_cast; linarith
  have hx2 : x ≤ ((10 ^ 6 : ℤ) : ℝ) := by
    rw [hx, div_le_iff₀ hupos]; rw [e2] at hhi; push_cast; linarith
  have r1 := roundEven_mono_int hx1
  have r2 := roundEven_le_int hx2
  have rd := roundEven_dist x
  set m := (roundEven x).toNat with hm
  have hmz : (m : ℤ) = roundEven x := by rw [hm]; omega
  have hmr : (m : ℝ) = (roundEven x : ℝ) := by rw [← hmz]; push_cast; rfl
  have herr : |(m : ℝ) * u - a| ≤ 5 * (10 : ℝ) ^ (-6 : ℤ) * a := by
    rw [hax, ← sub_mul, abs_mul, abs_of_pos hupos, hmr, ← mul_assoc]
    refine mul_le_mul_of_nonneg_right (rd.trans ?_) hupos.le
    push_cast at hx1
    rw [show ((10 : ℝ) ^ (-6 : ℤ)) = 1 / 10 ^ 6 by norm_num [zpow_neg]]
    nlinarith
  have hs : sixDigits a = if m = 10 ^ 6 then (10 ^ 5, e + 1) else (m, e) := rfl
  rw [hs]
  split
  · rename_i h
    refine ⟨le_refl _, by norm_num, ?_⟩
    simp only
    rw [h] at herr
    convert herr using 3
    push_cast
    rw [show e + 1 - 5 = (e - 5) + 1 by ring, zpow_add₀ h10.ne', ← hu]
    norm_num
    ring
  · rename_i h
    refine ⟨?_, ?_, herr⟩
    · show 10 ^ 5 ≤ m
      omega
    · show m < 10 ^ 6
      omega

/-- The six-digit value. -/
theorem sixDigits_fix {m : Nat} {X : ℤ} (h1 : 10 ^ 5 ≤ m) (h2 : m < 10 ^ 6) : sixDigits ((m : ℝ) * (10 : ℝ) ^ (X - 5)) = (m, X) := by
  have h10 : (0 : ℝ) < 10 := by norm_num
  have hu : (0 : ℝ) < (10 : ℝ) ^ (X - 5) := zpow_pos h10 _
  have h1' : (10 : ℝ) ^ 5 ≤ m := by exact_mod_cast h1
  have h2' : (m : ℝ) < (10 : ℝ) ^ 6 := by exact_mod_cast h2
  have e1 : (10 : ℝ) ^ X = 10 ^ 5 * (10 : ℝ) ^ (X - 5) := by
    rw [← zpow_natCast, ← zpow_add₀ h10.ne']; congr 1; push_cast; ring
  have e2 : (10 : ℝ) ^ (X + 1) = 10 ^ 6 * (10 : ℝ) ^ (X - 5) := by
    rw [← zpow_natCast, ← zpow_add₀ h10.ne']; congr 1; push_cast; ring
  have hpos : (0 : ℝ) < (m : ℝ) * (10 : ℝ) ^ (X - 5) := mul_pos (lt_of_lt_of_le (by norm_num) h1') hu
  have hlog : Int.log 10 ((m : ℝ) * (10 : ℝ) ^ (X - 5)) = X := by
    apply le_antisymm
    · have := (Int.lt_zpow_iff_log_lt (b := 10) (x := X + 1) (by norm_num) hpos).1 (by
        push_cast; rw [e2]; exact mul_lt_mul_of_pos_right h2' hu)
      omega
    · exact (Int.zpow_le_iff_le_log (b := 10) (x := X) (by norm_num) hpos).1 (by
        push_cast; rw [e1]; exact mul_le_mul_of_nonneg_right h1' hu.le)
  unfold sixDigits
  rw [hlog]
  simp only
  rw [mul_div_assoc, div_self hu.ne', mul_one]
  have : roundEven (m : ℝ) = (m : ℤ) := by exact_mod_cast roundEven_int (m : ℤ)
  rw [this, Int.toNat_natCast, if_neg (by omega)]

/-! ### `%.6g` -/

/-- Any digits `ip`, `fp` whose combined value (as a decimal fraction with `fp` after the point) is `x`. -/
theorem gText_shape (neg : Bool) {m : Nat} {X : ℤ} (h2 : m < 10 ^ 6) :
    ∃ ip fp ex, gText neg m X = decText neg ip fp ex ∧ ip ≠ [] ∧ (∀ d ∈ ip, d < 10) ∧ (∀ d ∈ fp, d < 10) ∧
      (val (ip ++ fp) : ℝ) * (10 : ℝ) ^ (ex.getD 0 - (fp.length : ℤ)) = (m : ℝ) * (10 : ℝ) ^ (X - 5) := by
  have hlen := digitsN_length 6 m
  have hlt := digitsN_lt 6 m
  have hval : val (digitsN 6 m) = m := by rw [val_digitsN]; exact Nat.mod_eq_of_lt h2
  have htd : ∀ k, k ≤ 6 → val (List.take k (digitsN 6 m) ++ List.drop k (digitsN 6 m)) = m ∧ (List.drop k (digitsN 6 m)).length = 6 - k := by
    intro k _
    rw [List.take_append_drop, hval, List.length_drop, hlen]
    exact ⟨rfl, rfl⟩
  have hne : ∀ k, List.take (k + 1) (digitsN 6 m) ≠ [] := by
    intro k h
    have := congrArg List.length h
    rw [List.length_take, hlen] at this
    simp at this
  unfold gText
  simp only
  split
  · rename_i hX
    split
    · rename_i h0
      refine ⟨_, _, _, rfl, hne _, fun d hd => hlt d (List.mem_of_mem_take hd), fun d hd => hlt d (List.mem_of_mem_drop (strip_mem hd)), ?_⟩
      obtain ⟨t1, t2⟩ := htd (X.toNat + 1) (by omega)
      rw [val_strip, t1, t2]
      congr 2
      simp only [Option.getD_none]
      omega
    · rename_i h0
      refine ⟨_, _, _, rfl, by simp, by simp, ?_, ?_⟩
      · intro d hd
        have := strip_mem hd
        rw [List.mem_append, List.mem_replicate] at this
        rcases this with h | h
        · omega
        · exact hlt d h
      · rw [val_strip, List.length_append, List.length_replicate, hlen, val_append, val_append, val_replicate_zero, hval, val_singleton, Nat.zero_mul, Nat.zero_mul,
          Nat.zero_add, Nat.zero_add]
        congr 2
        simp only [Option.getD_none]
        omega
  · refine ⟨_, _, _, rfl, hne 0, fun d hd => hlt d (List.mem_of_mem_take hd), fun d hd => hlt d (List.mem_of_mem_drop (strip_mem hd)), ?_⟩
    obtain ⟨t1, t2⟩ := htd 1 (by omega)
    rw [val_strip, t1, t2]
    rfl

end
end Nnet.NN
