import Verif.NN.PropsFloatFile
import Mathlib.Data.Nat.Digits.Lemmas
/-!
# C79: loading a file of decimal numbers that the library did not write

`C79_finite` is about files `save` wrote. This is about any file of decimal numbers, for instance one typed by hand or written with more digits: each weight
becomes the nearest `double`, and a number too large for a `double` makes its weight the largest `double` and every later weight 0.
-/
namespace Nnet.NN.Flt
open B64 FV
noncomputable section

/-- A decimal number: optional minus sign, digits, optional fraction, optional exponent. -/
structure Spec.Decimal where
  neg : Bool
  ip : List Nat
  fp : List Nat
  ex : Option Int
  nonempty : ip ≠ []
  ip_digit : ∀ d ∈ ip, d < 10
  fp_digit : ∀ d ∈ fp, d < 10

/-- Its characters. -/
def Spec.Decimal.text (d : Spec.Decimal) : List Char := decText d.neg d.ip d.fp d.ex

/-- Its value. -/
def Spec.Decimal.value (d : Spec.Decimal) : ℝ :=
  (if d.neg then -1 else 1) * ((Nat.ofDigits 10 (d.ip ++ d.fp).reverse : ℕ) : ℝ) * (10 : ℝ) ^ (d.ex.getD 0 - d.fp.length)

/-- The value rounds to an infinity. -/
def Spec.Decimal.TooLarge (d : Spec.Decimal) : Prop := rnd d.value = pinf ∨ rnd d.value = ninf

/-- A file with these numbers, each followed by a blank. -/
def Spec.numbersText (ds : List Spec.Decimal) : List Char := ds.flatMap fun d => d.text ++ [' ']

variable (P : Platform) (nn : Dbl → Bool)

theorem val_ofDigits (ds : List Nat) : NN.val ds = Nat.ofDigits 10 ds.reverse := by
  induction ds using List.reverseRecOn with
  | nil => rfl
  | append_singleton l a ih =>
    rw [List.reverse_append, List.reverse_singleton, List.singleton_append, Nat.ofDigits_cons, ← ih]
    unfold NN.val
    rw [List.foldl_append]
    simp only [List.foldl_cons, List.foldl_nil]
    push_cast
    ring

theorem strtod_text (d : Spec.Decimal) : strtod d.text = (d.value, true) := by
  unfold Spec.Decimal.text Spec.Decimal.value
  rw [strtod_decText d.neg d.ex d.nonempty d.ip_digit d.fp_digit, val_ofDigits]

theorem take_text (d : Spec.Decimal) : takeNumber .init d.text = (d.text, []) := takeNumber_run _ _ (run_decText _ _ d.nonempty d.ip_digit d.fp_digit)

theorem text_ne (d : Spec.Decimal) : d.text ≠ [] := by
  unfold Spec.Decimal.text decText
  obtain ⟨a, l, h⟩ := List.exists_cons_of_ne_nil d.nonempty
  rw [h]
  cases d.neg <;> simp

/-- One number read. -/
theorem read_text (d : Spec.Decimal) {ws : List Char} (hws : ∀ c ∈ ws, isSpace c = true) (r : List Char) :
    InStream.read (dblText P nn) ⟨ws ++ (d.text ++ ' ' :: r), true⟩ = ((convD P d.text).1, ⟨' ' :: r, (convD P d.text).2⟩) := by
  obtain ⟨h1, h2⟩ := number_head (take_text d) d.text.length (' ' :: r) (List.length_pos_iff.2 (text_ne d)) (text_ne d)
  rw [List.take_length] at h1 h2
  unfold InStream.read
  simp only [Bool.true_eq_false, if_false]
  rw [dropWhile_ws hws, h1, if_neg h2, takeNumber_append (by rfl) _ _ _ (take_text d)]
  show ((convD P d.text).1, InStream.mk (' ' :: r) ((convD P d.text).2 && true)) = _
  rw [Bool.and_true]

theorem conv_text (d : Spec.Decimal) : (¬ d.TooLarge → Dbl.v (convD P d.text).1 = rnd d.value ∧ (convD P d.text).2 = true) ∧
    (rnd d.value = pinf → Dbl.v (convD P d.text).1 = fin dblMax ∧ (convD P d.text).2 = false) ∧
    (rnd d.value = ninf → Dbl.v (convD P d.text).1 = fin (-dblMax) ∧ (convD P d.text).2 = false) := by
  have hs := strtod_text d
  have h1 : (strtod d.text).1 = d.value := congrArg Prod.fst hs
  have h2 : (strtod d.text).2 = true := congrArg Prod.snd hs
  unfold convD
  split_ifs with a b c
  · rw [h2] at a; cases a
  · rw [h1] at b
    exact ⟨fun h => (h (.inl b)).elim, fun _ => ⟨rfl, rfl⟩, fun h => by rw [b] at h; cases h⟩
  · rw [h1] at c
    exact ⟨fun h => (h (.inr c)).elim, fun h => (b (by rw [h1]; exact h)).elim, fun _ => ⟨rfl, rfl⟩⟩
  · rw [h1] at b c
    exact ⟨fun _ => ⟨congrArg rnd h1, rfl⟩, fun h => (b h).elim, fun h => (c h).elim⟩

theorem st_bad (st : InStream) (h : st.good = false) : ∀ k, readSt (R := Double P) (dblText P nn) st k = st
  | 0 => rfl
  | k + 1 => by
    show (InStream.read (dblText P nn) (readSt (dblText P nn) st k)).2 = st
    rw [st_bad st h k]
    unfold InStream.read
    rw [if_pos h]

theorem v_bad (st : InStream) (h : st.good = false) (k : Nat) : readV (R := Double P) (dblText P nn) st k = 0 := by
  unfold readV
  rw [st_bad P nn st h]
  unfold InStream.read
  rw [if_pos h]

/-- All numbers of the file, read one after another. -/
theorem read_numbers : ∀ (ds : List Spec.Decimal) (ws : List Char), (∀ c ∈ ws, isSpace c = true) →
    (∀ k (hk : k < ds.length), (∀ i (hi : i < k), ¬ (ds[i]'(by omega)).TooLarge) →
      readV (dblText P nn) ⟨ws ++ Spec.numbersText ds, true⟩ k = (convD P ds[k].text).1) ∧
    (∀ k i (hi : i < ds.length), i < k → ds[i].TooLarge → readV (dblText P nn) ⟨ws ++ Spec.numbersText ds, true⟩ k = 0) ∧
    (∀ k, ds.length ≤ k → readV (dblText P nn) ⟨ws ++ Spec.numbersText ds, true⟩ k = 0)
  | [], ws, hws => by
    refine ⟨fun k hk => by simp at hk, fun k i hi => by simp at hi, fun k _ => ?_⟩
    have h0 : InStream.read (R := Double P) (dblText P nn) ⟨ws, true⟩ = (0, ⟨[], false⟩) := by
      unfold InStream.read
      have : ws.dropWhile isSpace = [] := by
        rw [List.dropWhile_eq_nil_iff]
        exact hws
      simp [this]
    rw [show ws ++ Spec.numbersText [] = ws by simp [Spec.numbersText]]
    cases k with
    | zero => exact congrArg Prod.fst h0
    | succ k =>
      unfold readV
      rw [Nat.add_comm, readSt_add]
      show (InStream.read (dblText P nn) (readSt (dblText P nn) (InStream.read (dblText P nn) ⟨ws, true⟩).2 k)).1 = 0
      rw [h0]
      exact v_bad P nn _ rfl k
  | d :: ds, ws, hws => by
    have hr := read_text P nn d hws (Spec.numbersText ds)
    have ht : ws ++ Spec.numbersText (d :: ds) = ws ++ (d.text ++ ' ' :: Spec.numbersText ds) := by
      simp [Spec.numbersText]
    rw [ht]
    have hs : ∀ k, readV (dblText P nn) ⟨ws ++ (d.text ++ ' ' :: Spec.numbersText ds), true⟩ (k + 1) =
        readV (dblText P nn) ⟨' ' :: Spec.numbersText ds, (convD P d.text).2⟩ k := by
      intro k
      unfold readV
      rw [Nat.add_comm, readSt_add]
      show (InStream.read (dblText P nn) (readSt (dblText P nn) (InStream.read (dblText P nn) ⟨ws ++ (d.text ++ ' ' :: Spec.numbersText ds), true⟩).2 k)).1 = _
      rw [hr]
    have hz : readV (dblText P nn) ⟨ws ++ (d.text ++ ' ' :: Spec.numbersText ds), true⟩ 0 = (convD P d.text).1 := congrArg Prod.fst hr
    by_cases hd : d.TooLarge
    · have hb : (convD P d.text).2 = false := by
        rcases hd with h | h
        · exact ((conv_text P d).2.1 h).2
        · exact ((conv_text P d).2.2 h).2
      have hzero : ∀ k, readV (dblText P nn) ⟨ws ++ (d.text ++ ' ' :: Spec.numbersText ds), true⟩ (k + 1) = 0 := by
        intro k
        rw [hs, hb]
        exact v_bad P nn _ rfl k
      refine ⟨fun k hk hall => ?_, fun k i hi hik _ => ?_, fun k hk => ?_⟩
      · cases k with
        | zero => exact hz
        | succ k => exact (hall 0 (by omega) hd).elim
      · obtain ⟨k, rfl⟩ := Nat.exists_eq_succ_of_ne_zero (show k ≠ 0 by omega)
        exact hzero k
      · obtain ⟨k, rfl⟩ := Nat.exists_eq_succ_of_ne_zero (show k ≠ 0 by simp at hk; omega)
        exact hzero k
    · have hg : (convD P d.text).2 = true := ((conv_text P d).1 hd).2
      rw [hg] at hs
      obtain ⟨i1, i2, i3⟩ := read_numbers ds [' '] (by simp [isSpace])
      refine ⟨fun k hk hall => ?_, fun k i hi hik hbad => ?_, fun k hk => ?_⟩
      · cases k with
        | zero => exact hz
        | succ k =>
          rw [hs]
          exact i1 k (by simpa using hk) (fun i hi => hall (i + 1) (by omega))
      · cases i with
        | zero => exact (hd hbad).elim
        | succ i =>
          obtain ⟨k, rfl⟩ := Nat.exists_eq_succ_of_ne_zero (show k ≠ 0 by omega)
          rw [Nat.succ_eq_add_one, hs]
          exact i2 k i (by simpa using hi) (by omega) hbad
      · obtain ⟨k, rfl⟩ := Nat.exists_eq_succ_of_ne_zero (show k ≠ 0 by simp at hk; omega)
        rw [Nat.succ_eq_add_one, hs]
        exact i3 k (by simpa using hk)

/-- **C79, any file of decimal numbers.** Load a file that holds the decimal numbers `ds` into any network. Nothing but weights changes. A weight whose number, and all numbers before
it, are not too large for a double becomes the double nearest to the number. At the first number that is too large the weight becomes the largest double with the sign of the
number, and all weights after it become 0, whatever the file says; so do the weights for which the file has no number. -/
theorem C79_typed_file (n : Net (Double P)) (path : String) (fs : Files) (ds : List Spec.Decimal) (hf : fs path = some (Spec.numbersText ds)) :
    ∃ n', n.load (dblText P nn) path fs = .ok n' ∧ Spec.OnlyWeights n n' ∧ (Spec.allWeights n').length = (Spec.allWeights n).length ∧
      ∀ k (w : Double P), (Spec.allWeights n')[k]? = some w →
        (∀ hk : k < ds.length, (∀ i (hi : i ≤ k), ¬ (ds[i]'(by omega)).TooLarge) → Dbl.v w = rnd ds[k].value) ∧
        (∀ hk : k < ds.length, (∀ i (hi : i < k), ¬ (ds[i]'(by omega)).TooLarge) → (rnd ds[k].value = pinf → Dbl.v w = fin dblMax) ∧
          (rnd ds[k].value = ninf → Dbl.v w = fin (-dblMax))) ∧
        (∀ i (hi : i < ds.length), i < k → ds[i].TooLarge → Dbl.v w = fin 0) ∧
        (ds.length ≤ k → Dbl.v w = fin 0) := by
  obtain ⟨n', h1, h2, h3⟩ := load_ok (dblText P nn) n path fs hf
  obtain ⟨i1, i2, i3⟩ := read_numbers P nn ds [] (by simp)
  rw [List.nil_append] at i1 i2 i3
  refine ⟨n', h1, h2, by rw [h3, List.length_map, List.length_range, allWeights_length], fun k w hw => ?_⟩
  have hw' : w = readV (dblText P nn) ⟨Spec.numbersText ds, true⟩ k := by
    rw [h3, List.getElem?_map, Option.map_eq_some_iff] at hw
    obtain ⟨j, hj, rfl⟩ := hw
    rw [List.getElem?_range (by
      by_contra hc
      rw [List.getElem?_eq_none (by simpa using hc)] at hj
      cases hj)] at hj
    cases hj
    rfl
  rw [hw']
  refine ⟨fun hk hall => ?_, fun hk hall => ?_, fun i hi hik hbad => ?_, fun hk => ?_⟩
  · rw [i1 k hk (fun i hi => hall i (by omega))]
    exact ((conv_text P ds[k]).1 (hall k (le_refl _))).1
  · rw [i1 k hk hall]
    exact ⟨fun h => ((conv_text P ds[k]).2.1 h).1, fun h => ((conv_text P ds[k]).2.2 h).1⟩
  · rw [i2 k i hi hik hbad]
    rfl
  · rw [i3 k hk]
    rfl

/-- 0.1 -/
def tenth : Spec.Decimal := ⟨false, [0], [1], none, by simp, by simp, by simp⟩
/-- 1e400 -/
def huge : Spec.Decimal := ⟨false, [1], [], some 400, by simp, by simp, by simp⟩
/-- -2.5e+00 -/
def minus25 : Spec.Decimal := ⟨true, [2], [5], some 0, by simp, by simp, by simp⟩

example : Spec.numbersText [tenth, huge, minus25] = "0.1 1e+400 -2.5e+00 ".toList := by
  have h : Nat.log 10 400 = 2 := by decide
  simp [Spec.numbersText, Spec.Decimal.text, tenth, huge, minus25, decText, expText, expDigits, digitsN, h, digitChar]

theorem huge_large : rnd huge.value = pinf := by
  have hv : huge.value = (10 : ℝ) ^ (400 : ℤ) := by
    unfold Spec.Decimal.value huge
    simp [Nat.ofDigits]
  unfold rnd
  rw [hv, if_pos]
  rw [← r64_overflow]
  refine r64_mono ?_
  rw [overflow_zpow]
  calc (2 : ℝ) ^ (1024 : ℤ) = (2 ^ 4) ^ (256 : ℕ) := by rw [← pow_mul, ← zpow_natCast]; norm_num
    _ ≤ (10 ^ 1 * 10 ^ 1) ^ (200 : ℕ) := by norm_num
    _ = (10 : ℝ) ^ (400 : ℤ) := by rw [← pow_add, ← pow_mul, ← zpow_natCast]; norm_num
theorem tenth_value : tenth.value = 1 / 10 := by
  unfold Spec.Decimal.value tenth
  simp [Nat.ofDigits]
theorem tenth_fits : ¬ tenth.TooLarge := by
  have h : |r64 tenth.value| ≤ 1 := r64_abs_le (by rw [tenth_value, abs_of_pos] <;> norm_num) (r64_one (le_refl _) (by norm_num))
  have : rnd tenth.value = fin _ := rnd_fin (lt_of_le_of_lt h (by rw [overflow_zpow]; exact one_lt_zpow₀ (by norm_num) (by norm_num)))
  rintro (e | e) <;> rw [this] at e <;> cases e

/-- A file "0.1 1e400 -2.5" loaded into a network of three weights gives the double nearest to 0.1, the largest double, and 0. -/
example : ∃ n' a b c, (rowNet [(1 : Double P), 1, 1]).load (dblText P nn) "w" (fun _ => some (Spec.numbersText [tenth, huge, minus25])) = .ok n' ∧
    Spec.allWeights n' = [a, b, c] ∧ Dbl.v a = rnd (1 / 10) ∧ Dbl.v b = fin dblMax ∧ Dbl.v c = fin 0 := by
  obtain ⟨n', h1, -, h2, h3⟩ := C79_typed_file P nn (rowNet [(1 : Double P), 1, 1]) "w" (fun _ => some (Spec.numbersText [tenth, huge, minus25])) _ rfl
  rw [rowNet_weights] at h2
  obtain ⟨a, b, c, h4⟩ := List.length_eq_three.1 h2
  rw [h4] at h3
  refine ⟨n', a, b, c, h1, h4, ?_, ?_, ?_⟩
  · have := (h3 0 a rfl).1 (by simp) (by intro i hi; obtain rfl : i = 0 := by omega
                                         exact tenth_fits)
    rw [this]
    show rnd tenth.value = _
    rw [tenth_value]
  · exact ((h3 1 b rfl).2.1 (by simp) (by intro i hi; obtain rfl : i = 0 := by omega
                                          exact tenth_fits)).1 huge_large
  · exact (h3 2 c rfl).2.2.1 1 (by simp) (by omega) (.inl huge_large)

end
end Nnet.NN.Flt
