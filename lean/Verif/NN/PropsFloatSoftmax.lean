import Verif.NN.PropsFloatNan
/-!
# C74: softmax in floating point
-/
namespace Nnet.NN.Flt
open FV Arith Ieee Spec

section
variable {F : Type}

theorem prob_spec [Arith F] {c : Nat} {h P : Mat F} (hp : Softmax.prob c h = .ok P) :
    P.nr = h.nr ∧ P.nc = h.nc ∧ ∀ i j, i < h.nr → j < h.nc → P.f i j = exp (h.f i j) * (1 / total ((List.range h.nc).map fun k => exp (h.f i k))) := by
  obtain ⟨s, h1, h2⟩ := bind_eq_ok hp
  unfold repeatM at h1
  split at h1
  · cases h1
    obtain ⟨p1, p2, p3, p4, p5⟩ := zip_spec h2
    simp only [exponential, Mat.map_nr, Mat.map_nc] at p3 p4 p5
    refine ⟨p3, p4, fun i j hi hj => ?_⟩
    rw [p5 i j hi hj, Mat.map_f' hi hj]
    simp only [Mat.repmat, rowsum, exponential, Mat.map_nr, Mat.map_nc, Mat.of_nr, Mat.of_nc] at p1 p2 ⊢
    congr 1
    rw [Mat.map_f' (by simp only [Mat.of_nr]; omega) (by simp only [Mat.of_nc]; omega), Mat.of_f' (by omega) (by omega), Nat.mod_eq_of_lt hi, Nat.mod_one, Mat.of_f' hi (by omega)]
    congr 2
    refine List.map_congr_left fun k hk => ?_
    rw [Mat.map_f' hi (by simpa using hk)]
  · cases h1

variable [Ieee F]

/-- Softmax of a row is NaN in the place of a NaN or of a value whose exponential overflows. -/
theorem prob_overflow {g : Nat → F} {m j : Nat} (hj : j < m) (h : Le (fin 710) (val (g j))) : NaN (exp (g j) * (1 / total ((List.range m).map fun k => exp (g k)))) := by
  have he := exp_over h
  by_cases hn : ∃ k, k < m ∧ NaN (g k)
  · obtain ⟨k, hk, hkn⟩ := hn
    refine mul_nan (.inr (div_nan (.inr (total_nan _ ⟨exp (g k), List.mem_map.2 ⟨k, by simpa using hk, rfl⟩, exp_nan hkn⟩))))
  · have ht : val (total ((List.range m).map fun k => exp (g k))) = pinf := by
      refine total_pinf _ (fun x hx => ?_) ⟨exp (g j), List.mem_map.2 ⟨j, by simpa using hj, rfl⟩, he⟩
      obtain ⟨k, hk, rfl⟩ := List.mem_map.1 hx
      exact exp_nonneg fun hc => hn ⟨k, by simpa using hk, hc⟩
    have hd := val_div 1 (total ((List.range m).map fun k => exp (g k)))
    rw [val_one, ht] at hd
    rw [Spec.NaN, val_mul, he, show val (1 / total ((List.range m).map fun k => exp (g k))) = fin 0 from hd]
    simp [FV.mul, infSign]

/-- A NaN anywhere in a row makes the whole row NaN. -/
theorem prob_nan {g : Nat → F} {m k j : Nat} (hk : k < m) (h : NaN (g k)) : NaN (exp (g j) * (1 / total ((List.range m).map fun k => exp (g k)))) :=
  mul_nan (.inr (div_nan (.inr (total_nan _ ⟨exp (g k), List.mem_map.2 ⟨k, by simpa using hk, rfl⟩, exp_nan h⟩))))

theorem exp_under {x : F} (h : Le (val x) (fin (-746))) : val (exp x) = fin 0 := by
  have he := val_exp x
  cases hx : val x with
  | nan => rw [hx] at h; exact (nan_Le h).elim
  | pinf => rw [hx] at h; exact h.elim
  | ninf => rw [hx] at he; exact he
  | fin a => rw [hx] at he h; exact he.2.2.2.1 h

/-- A row of very negative values is NaN. -/
theorem prob_underflow {g : Nat → F} {m j : Nat} (hj : j < m) (h : ∀ k, k < m → Le (val (g k)) (fin (-746))) : NaN (exp (g j) * (1 / total ((List.range m).map fun k => exp (g k)))) := by
  have ht : val (total ((List.range m).map fun k => exp (g k))) = fin 0 := by
    refine total_zero _ fun x hx => ?_
    obtain ⟨k, hk, rfl⟩ := List.mem_map.1 hx
    exact exp_under (h k (by simpa using hk))
  have hd := val_div 1 (total ((List.range m).map fun k => exp (g k)))
  rw [val_one, ht] at hd
  simp only [IsDiv] at hd
  rw [if_pos trivial, if_neg one_ne_zero] at hd
  rw [Spec.NaN, val_mul, exp_under (h j hj)]
  rcases hd with hd | hd <;> rw [hd] <;> simp [FV.mul, infSign]

/-- Values between -600 and 600 are safe: every probability is a number between 0 and 2 (the rounding error of the quotient is not bounded more sharply here). -/
theorem prob_safe {g : Nat → F} {m j : Nat} (hm : m < 2 ^ 50) (hj : j < m) (h : ∀ k, k < m → Between (-600) 600 (g k)) :
    Between 0 2 (exp (g j) * (1 / total ((List.range m).map fun k => exp (g k)))) := by
  have hexp : ∀ k, k < m → ∃ q, val (exp (g k)) = fin q ∧ 8 / large ≤ q ∧ q ≤ sumMax / 2 ^ 100 := fun k hk => by
    obtain ⟨a, ha, h1, h2⟩ := h k hk
    have he := val_exp (g k)
    rw [ha] at he
    exact Le_fin (he.2.2.2.2.2.1 (by linarith)) (he.2.2.2.2.2.2.2.2 h2)
  have hsp := sumMax_pos
  have hlp := large_pos
  have h8 : 0 < 8 / large := div_pos (by norm_num) hlp
  obtain ⟨s, hs, hsb⟩ := total_bound ((List.range m).map fun k => exp (g k)) (sumMax / 2 ^ 100) (fun x hx => by
    obtain ⟨k, hk, rfl⟩ := List.mem_map.1 hx
    obtain ⟨q, hq, h1, h2⟩ := hexp k (by simpa using hk)
    exact ⟨q, hq, by rw [abs_of_nonneg (h8.le.trans h1)]; exact h2⟩) (by simpa using hm) (by
      rw [List.length_map, List.length_range]
      have h1 : (m : ℝ) ≤ 2 ^ 50 := by exact_mod_cast hm.le
      have h2 : (m : ℝ) ≤ 2 ^ 100 := h1.trans (pow_le_pow_right₀ (by norm_num) (by norm_num))
      calc (m : ℝ) * (sumMax / 2 ^ 100) ≤ 2 ^ 100 * (sumMax / 2 ^ 100) := mul_le_mul_of_nonneg_right h2 (by positivity)
        _ = sumMax := mul_div_cancel₀ _ (by positivity))
  obtain ⟨e, he, he1, he2⟩ := hexp j hj
  have hge : e ≤ s := by
    obtain ⟨_, h2⟩ := total_nonneg ((List.range m).map fun k => exp (g k)) (fun x hx => by
      obtain ⟨k, hk, rfl⟩ := List.mem_map.1 hx
      obtain ⟨q, hq, h1, _⟩ := hexp k (by simpa using hk)
      rw [hq]
      exact h8.le.trans h1)
    have h3 := h2 (exp (g j)) (List.mem_map.2 ⟨j, by simpa using hj, rfl⟩)
    rw [he, hs] at h3
    exact h3
  have he0 : 0 < e := lt_of_lt_of_le h8 he1
  have hs0 : 0 < s := lt_of_lt_of_le he0 hge
  have hinv : 1 / s ≤ large := by
    rw [div_le_iff₀ hs0]
    have : 8 ≤ s * large := by
      have := he1.trans hge
      rwa [div_le_iff₀ hlp] at this
    linarith
  obtain ⟨q, hq, hqb⟩ := (Ieee.rounding (F := F)).finite (1 / s) (by rw [abs_of_pos (by positivity)]; exact hinv)
  have hdiv : val (1 / total ((List.range m).map fun k => exp (g k))) = fin q := (div_fin val_one hs hs0.ne').trans hq
  have hq0 : 0 ≤ q := by
    have := rnd_le (F := F) (show (0 : ℝ) ≤ 1 / s by positivity)
    rw [rnd_0, hq] at this
    exact this
  rw [abs_of_nonneg hq0, abs_of_pos (by positivity)] at hqb
  have hmul : e * q ≤ 2 := by
    calc e * q ≤ s * (2 * (1 / s)) := mul_le_mul hge hqb hq0 hs0.le
      _ = 2 := by field_simp
  have := mul_between (F := F) (l := 0) (u := 2) he hdiv (by norm_num) (by norm_num) (by push_cast; positivity) (by push_cast; exact hmul)
  simpa using this

/-! ## A training step -/

/-- `trainOn` in its parts, for the output layer. -/
theorem trainOn_out {n n' : Net F} {x y : Mat F} (h : n.trainOn x y = .ok n') :
    ∃ a n1 pa d o2, n.forwardprop x = .ok (a, n1) ∧ Forwarded n.output.toLayer pa a n1.output.toLayer ∧ n1.output.costd = n.output.costd ∧ OutBacked n1.output y d o2 ∧
      ∀ j, NaN (o2.grad.f 0 j) → NaN (n'.output.W.f 0 j) := by
  obtain ⟨⟨a, n1⟩, h1, h⟩ := bind_eq_ok h
  obtain ⟨n2, h2, h3⟩ := bind_eq_ok h
  have h1' := h1
  obtain ⟨⟨c, hid⟩, h4, h1⟩ := bind_eq_ok h1
  obtain ⟨⟨r, out⟩, h5, h1⟩ := bind_eq_ok h1
  cases h1
  obtain ⟨⟨d, out2⟩, h6, h2⟩ := bind_eq_ok h2
  obtain ⟨⟨d', hid2⟩, h7, h2⟩ := bind_eq_ok h2
  cases h2
  obtain ⟨L3, h8, h3⟩ := bind_eq_ok h3
  obtain ⟨hid3, h9, h3⟩ := bind_eq_ok h3
  cases h3
  obtain ⟨hf, _, hcd, _⟩ := out_forwardprop_spec h5
  refine ⟨a, _, c, d, out2, h1', hf, hcd, out_backprop_spec h6, fun j hn => ?_⟩
  have h8 : out2.toLayer.updateWith out2.grad = .ok L3 := h8
  obtain ⟨_, _, _, _, _, _, _, _, _, _, u1, u2, u3⟩ := updateWith_spec h8
  obtain ⟨hi, hj⟩ := nan_inside hn
  show NaN (L3.W.f 0 j)
  rw [u3 0 j (by omega) (by omega)]
  exact sub_nan (.inr (mul_nan (.inr hn)))

/-- A NaN delta of unit `j` for a row makes the gradient of its bias NaN. -/
theorem out_grad_nan {o o2 : OutputLayer F} {y d : Mat F} (h : OutBacked o y d o2) (hr : Ready o.toLayer) {i j : Nat} (hi : i < o2.delta.nr) (hj : j < o2.delta.nc) (hn : NaN (o2.delta.f i j)) :
    NaN (o2.grad.f 0 j) := by
  have h1 := h.pa_nr
  rw [h.grad 0 j hr.2.1 hj]
  refine add_nan (.inl (dot_nan _ ⟨(o.pa.f i 0, o2.delta.f i j), List.mem_map.2 ⟨i, by simpa using hi, rfl⟩, .inr ⟨?_, hn⟩⟩))
  rw [hr.2.2 i (by omega)]
  exact val_one_ne

/-- The delta of a softmax output is NaN where the probability is. -/
theorem softmax_delta {y a z delta : Mat F} (h : Softmax.costd y a z = .ok delta) : delta.nr = a.nr ∧ delta.nc = a.nc ∧ ∀ i j, i < a.nr → j < a.nc →
    NaN (exp (a.f i j) * (1 / total ((List.range a.nc).map fun k => exp (a.f i k)))) → NaN (delta.f i j) := by
  obtain ⟨P, h1, h⟩ := bind_eq_ok h
  obtain ⟨d, h2, h⟩ := bind_eq_ok h
  cases h
  obtain ⟨p1, p2, p3⟩ := prob_spec h1
  obtain ⟨q1, q2, q3, q4, q5⟩ := zip_spec h2
  refine ⟨by simp only [divN, Mat.map_nr]; omega, by simp only [divN, Mat.map_nc]; omega, fun i j hi hj hn => divN_nan (by omega) (by omega) ?_⟩
  rw [q5 i j (by omega) (by omega), p3 i j hi hj]
  exact sub_nan (.inl hn)

theorem softmax_step {n n' n1 : Net F} {x y a : Mat F} (hs : n.output.costd = Softmax.costd) (hfw : n.forwardprop x = .ok (a, n1)) (h : n.trainOn x y = .ok n') {i j : Nat} (hi : i < a.nr) (hj : j < a.nc)
    (hn : NaN (exp (a.f i j) * (1 / total ((List.range a.nc).map fun k => exp (a.f i k))))) : NaN (n'.output.W.f 0 j) := by
  obtain ⟨a', n1', pa, d, o2, h1, hf, hcd, hb, hW⟩ := trainOn_out h
  rw [hfw] at h1
  cases h1
  have hdelta := hb.delta
  have ha : n1.output.a = a := hf.a_eq
  rw [hcd, hs, ha] at hdelta
  obtain ⟨e1, e2, e3⟩ := softmax_delta hdelta
  exact hW j (out_grad_nan hb hf.ready (by omega) (by omega) (e3 i j hi hj hn))

/-- Training a network with a softmax output on data for which an output is 710 or more: the bias of that class is NaN afterwards. (The exact derivative of the cost is between -1 and 1.) -/
theorem C74_overflow {n n' n1 : Net F} {x y a : Mat F} (hs : n.output.costd = Softmax.costd) (hfw : n.forwardprop x = .ok (a, n1)) (h : n.trainOn x y = .ok n') {i j : Nat} (hi : i < a.nr) (hj : j < a.nc)
    (hbig : Le (fin 710) (val (a.f i j))) : NaN (n'.output.W.f 0 j) := softmax_step hs hfw h hi hj (prob_overflow hj hbig)

/-- The same if all outputs for a row of the data are -746 or less: the biases of all classes are NaN afterwards. -/
theorem C74_underflow {n n' n1 : Net F} {x y a : Mat F} (hs : n.output.costd = Softmax.costd) (hfw : n.forwardprop x = .ok (a, n1)) (h : n.trainOn x y = .ok n') {i : Nat} (hi : i < a.nr)
    (hsmall : ∀ j, j < a.nc → Le (val (a.f i j)) (fin (-746))) : ∀ j, j < a.nc → NaN (n'.output.W.f 0 j) := fun _ hj => softmax_step hs hfw h hi hj (prob_underflow hj hsmall)

/-- One NaN bias becomes NaN biases of all classes in the next training step, whatever the data. -/
theorem C74_second {n n' : Net F} {x y : Mat F} (hs : n.output.costd = Softmax.costd) (hact : KeepsNaN n.output.actfunc.act) {j : Nat} (hn : NaN (n.output.W.f 0 j)) (h : n.trainOn x y = .ok n') :
    ∀ c, c < n.output.W.nc → NaN (n'.output.W.f 0 c) := by
  intro c hc
  have h' := h
  obtain ⟨a, n1, pa, d, o2, h1, hf, _⟩ := trainOn_out h'
  obtain ⟨_, hj⟩ := nan_inside hn
  have e1 := hf.a_nr
  have e2 := hf.a_nc
  have hp := hf.pos.1
  have ha : NaN (a.f 0 j) := by
    rw [hf.a_f 0 j hp hj]
    exact hact _ (bias_nan hf hn hp)
  exact softmax_step hs h1 h (by omega) (by omega) (prob_nan (k := j) (by omega) ha)

/-- Together: from two training steps after an overflow on, whatever is trained then, `predict` answers class 0 for every sample. -/
theorem C74_dead {n n1 n2 n3 m m' : Net F} {x y x' y' a s am : Mat F} {ops : List (Op F)} (hs : n.output.costd = Softmax.costd) (hact : KeepsNaN n.output.actfunc.act)
    (hfw : n.forwardprop x = .ok (a, n1)) {i j : Nat} (hi : i < a.nr) (hj : j < a.nc) (hbig : Le (fin 710) (val (a.f i j)))
    (h1 : n.trainOn x y = .ok n2) (h2 : n2.trainOn x' y' = .ok n3) (h3 : runAll ops n3 = .ok m) (hp : m.predict s = .ok (am, m')) :
    ∀ i, i < am.nr → am.f i 0 = lit 0 ∧ NaN (am.f i 1) := by
  have ht : ∀ {n n' : Net F} {x y : Mat F}, n.trainOn x y = .ok n' → KeepsNet n n' := fun h => by
    obtain ⟨⟨a, n1⟩, h1, h⟩ := bind_eq_ok h
    obtain ⟨n2, h2, h3⟩ := bind_eq_ok h
    exact (net_forwardprop_keeps h1).trans ((net_backprop_keeps h2).trans (net_update_keeps h3))
  have k1 := ht h1
  have k2 := ht h2
  have hn := C74_overflow hs hfw h1 hi hj hbig
  have hact2 : KeepsNaN n2.output.actfunc.act := by rw [k1.output.act]; exact hact
  have hn3 := C74_second (by rw [k1.costd]; exact hs) hact2 hn h2 0 (by have := (nan_inside hn).2; omega)
  exact C73_predict_first hn3 (by rw [k2.output.act]; exact hact2) h3 hp

/-- Outputs between -600 and 600 are safe: for labels between 0 and 1 every element of the softmax delta is a number between -1 and 2. -/
theorem C74_safe {y a z : Mat F} (hnr : y.nr = a.nr) (hnc : y.nc = a.nc) (hm : a.nc < 2 ^ 50) (hr : a.nr ≤ 2 ^ 53)
    (ha : ∀ i j, i < a.nr → j < a.nc → Between (-600) 600 (a.f i j)) (hy : ∀ i j, i < a.nr → j < a.nc → Between 0 1 (y.f i j)) :
    ∃ delta, Softmax.costd y a z = .ok delta ∧ delta.nr = a.nr ∧ delta.nc = a.nc ∧ ∀ i j, i < a.nr → j < a.nc → Between (-1) 2 (delta.f i j) := by
  have hP : ∃ P, Softmax.prob y.nc a = .ok P := by
    unfold Softmax.prob repeatM
    simp only
    rw [if_pos (by omega), ok_bind, Mat.zip_ok (by simp [exponential, rowsum, Mat.repmat]) (by simp [exponential, rowsum, Mat.repmat, hnc])]
    exact ⟨_, rfl⟩
  obtain ⟨P, hP⟩ := hP
  obtain ⟨p1, p2, p3⟩ := prob_spec hP
  unfold Softmax.costd
  rw [hP, ok_bind, Mat.zip_ok (by omega) (by omega), ok_bind]
  refine ⟨_, rfl, p1, p2, fun i j hi hj => ?_⟩
  rw [divN, Mat.map_f' (by simp only [Mat.of_nr]; omega) (by simp only [Mat.of_nc]; omega), Mat.of_f' (by omega) (by omega), p3 i j hi hj]
  obtain ⟨p, hp, hp1, hp2⟩ := prob_safe hm hj fun k hk => ha i k hi hk
  obtain ⟨q, hq, hq1, hq2⟩ := hy i j hi hj
  obtain ⟨e, he, he1, he2⟩ := sub_between (F := F) (l := -1) (u := 2) hp hq (by norm_num) (by norm_num) (by push_cast; linarith) (by push_cast; linarith)
  push_cast at he1 he2
  have hlit : val (lit (y.nr : ℚ) : F) = fin (y.nr : ℝ) := by
    rw [val_lit]
    have := rnd_int (F := F) (y.nr : ℤ) (by rw [abs_of_nonneg (by omega)]; exact_mod_cast hnr ▸ hr)
    simpa using this
  have h1 : (1 : ℝ) ≤ y.nr := by exact_mod_cast (by omega : 1 ≤ y.nr)
  have hd := div_fin he hlit (by linarith : (y.nr : ℝ) ≠ 0)
  obtain ⟨r, hr, hr1, hr2⟩ := rnd_between (F := F) (r := e / y.nr) (a := -1) (b := 2) (by norm_num) (by norm_num)
    (by push_cast; rw [le_div_iff₀ (by linarith)]; nlinarith) (by push_cast; rw [div_le_iff₀ (by linarith)]; nlinarith)
  exact ⟨r, hd.trans hr, by simpa using hr1, by simpa using hr2⟩

end

/-! ## A concrete case -/
noncomputable section

/-- No hidden layer; one softmax output whose bias is 800 and whose weight is 0. -/
def Witness.soft : Net Witness.T :=
  ⟨[], { Witness.layer (Mat.of 2 1 fun i _ => if i = 0 then lit (800 : ℤ) else 0) with cost := Softmax.cost, costd := Softmax.costd, y := Mat.empty }⟩

theorem Witness.soft_forward : ∃ p, Witness.soft.forwardprop (Witness.full 1 1 1) = .ok p := ⟨_, rfl⟩
theorem Witness.soft_trains : ∃ n', Witness.soft.trainOn (Witness.full 1 1 1) (Witness.full 1 1 1) = .ok n' := ⟨_, rfl⟩

/-- The hypotheses of `C74_overflow` are met: the output is 800. -/
example : ∃ a n1 n', Witness.soft.forwardprop (Witness.full 1 1 1) = .ok (a, n1) ∧ Witness.soft.trainOn (Witness.full 1 1 1) (Witness.full 1 1 1) = .ok n' ∧ Le (fin 710) (val (a.f 0 0)) ∧
    NaN (n'.output.W.f 0 0) := by
  obtain ⟨⟨a, n1⟩, h1⟩ := Witness.soft_forward
  obtain ⟨n', h2⟩ := Witness.soft_trains
  have h800 := Witness.val_lit_int 800 (by norm_num)
  have ha : val (a.f 0 0) = fin 800 := by
    cases h1
    show Witness.rndV (FV.add fin (FV.mul fin (Witness.rndV (fin 1)) (val (lit (800 : ℤ) : Witness.T))) (FV.add fin (FV.mul fin (Witness.rndV (fin 1)) (Witness.rndV (fin 0))) (fin 0))) = fin 800
    rw [h800, show Witness.rndV (fin 1) = fin 1 from Witness.rnd_one, show Witness.rndV (fin 0) = fin 0 from Witness.rnd_zero]
    show Witness.rnd (1 * 800 + (1 * 0 + 0)) = fin 800
    simpa using Witness.rounding.int 800 (by norm_num)
  have hbig : Le (fin 710) (val (a.f 0 0)) := by
    rw [ha]
    show (710 : ℝ) ≤ 800
    norm_num
  have hs : a.nr = 1 ∧ a.nc = 1 := by cases h1; exact ⟨rfl, rfl⟩
  exact ⟨a, n1, n', h1, h2, hbig, C74_overflow rfl h1 h2 (by omega) (by omega) hbig⟩

end
end Nnet.NN.Flt
