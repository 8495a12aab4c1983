import Verif.NN.ConvLemmas2
/-! # Closed forms of the convolution and pooling forward passes -/
namespace Nnet.NN
open Finset
noncomputable section

/-- The larger of 0 and the largest entry of the `sp x sp` window of `x` at `(i, j)`. -/
def max0 (x : Mat ℝ) (sp i j : Nat) : ℝ := (range sp ×ˢ range sp).fold max 0 (fun p => x.f (i + p.1) (j + p.2))

/-- The mean of the window. -/
def mean0 (x : Mat ℝ) (sp i j : Nat) : ℝ := (∑ u ∈ range sp, ∑ v ∈ range sp, x.f (i + u) (j + v)) / sp / sp

theorem max0_le {x : Mat ℝ} {sp i j : Nat} {c : ℝ} : max0 x sp i j ≤ c ↔ 0 ≤ c ∧ ∀ u v, u < sp → v < sp → x.f (i + u) (j + v) ≤ c := by
  unfold max0
  rw [Finset.fold_max_le]
  constructor
  · rintro ⟨h0, h⟩
    exact ⟨h0, fun u v hu hv => h (u, v) (by simp [hu, hv])⟩
  · rintro ⟨h0, h⟩
    refine ⟨h0, ?_⟩
    rintro ⟨u, v⟩ hp
    simp only [mem_product, mem_range] at hp
    exact h u v hp.1 hp.2

theorem le_max0 {x : Mat ℝ} {sp i j : Nat} {c : ℝ} : c ≤ max0 x sp i j ↔ c ≤ 0 ∨ ∃ u v, u < sp ∧ v < sp ∧ c ≤ x.f (i + u) (j + v) := by
  unfold max0
  rw [Finset.le_fold_max]
  constructor
  · rintro (h0 | ⟨⟨u, v⟩, hp, h⟩)
    · exact Or.inl h0
    · simp only [mem_product, mem_range] at hp
      exact Or.inr ⟨u, v, hp.1, hp.2, h⟩
  · rintro (h0 | ⟨u, v, hu, hv, h⟩)
    · exact Or.inl h0
    · exact Or.inr ⟨(u, v), by simp [hu, hv], h⟩

theorem maxval_ok (m : Mat ℝ) : ∃ v r c, MaxPool.maxval m = .ok (v, r, c) ∧ (r < m.nr ∧ c < m.nc ∧ m.f r c = v ∨ v = 0 ∧ r = 0 ∧ c = 0) ∧
    0 ≤ v ∧ (∀ a b, a < m.nr → b < m.nc → m.f a b ≤ v) := by
  unfold MaxPool.maxval
  obtain ⟨⟨v, r, c⟩, h, h1, h2, h3⟩ := loop_inv (n := m.nr)
    (body := fun i s => loop m.nc (fun j (s : ℝ × Nat × Nat) => do
      let v ← m.at' i j
      .ok (if v > s.1 then (v, i, j) else s)) s) (s := ((0 : ℝ), 0, 0))
    (fun i s => (s.2.1 < m.nr ∧ s.2.2 < m.nc ∧ m.f s.2.1 s.2.2 = s.1 ∨ s.1 = 0 ∧ s.2.1 = 0 ∧ s.2.2 = 0) ∧ 0 ≤ s.1 ∧
      (∀ a b, a < i → b < m.nc → m.f a b ≤ s.1)) ⟨Or.inr ⟨rfl, rfl, rfl⟩, le_refl _, fun a b ha => by omega⟩ (by
    rintro i ⟨v, r, c⟩ hi ⟨g1, g2, g3⟩
    obtain ⟨s', h, h1, h2, h3⟩ := loop_inv (n := m.nc)
      (body := fun j (s : ℝ × Nat × Nat) => (do
        let v ← m.at' i j
        .ok (if v > s.1 then (v, i, j) else s) : Res (ℝ × Nat × Nat))) (s := (v, r, c))
      (fun j s => (s.2.1 < m.nr ∧ s.2.2 < m.nc ∧ m.f s.2.1 s.2.2 = s.1 ∨ s.1 = 0 ∧ s.2.1 = 0 ∧ s.2.2 = 0) ∧ 0 ≤ s.1 ∧
        (∀ a b, (a < i ∨ a = i ∧ b < j) → b < m.nc → m.f a b ≤ s.1))
      ⟨g1, g2, fun a b ha hb => g3 a b (by omega) hb⟩ (by
      rintro j ⟨v, r, c⟩ hj ⟨g1, g2, g3⟩
      rw [Mat.at_ok hi hj, ok_bind]
      refine ⟨_, rfl, ?_⟩
      simp only at g1 g2 g3
      by_cases hv : m.f i j > v
      · rw [if_pos hv]
        refine ⟨Or.inl ⟨hi, hj, rfl⟩, le_trans g2 (le_of_lt hv), ?_⟩
        intro a b hab hb
        by_cases he : a = i ∧ b = j
        · rw [he.1, he.2]
        · exact le_trans (g3 a b (by omega) hb) (le_of_lt hv)
      · rw [if_neg hv]
        refine ⟨g1, g2, ?_⟩
        intro a b hab hb
        by_cases he : a = i ∧ b = j
        · rw [he.1, he.2]; exact not_lt.1 hv
        · exact g3 a b (by omega) hb)
    exact ⟨s', h, h1, h2, fun a b ha hb => h3 a b (by omega) hb⟩)
  exact ⟨v, r, c, h, h1, h2, h3⟩

/-- The value `maxval` finds in a window. -/
theorem maxval_window (x : Mat ℝ) (sp i j : Nat) :
    ∃ r c, MaxPool.maxval (Mat.of sp sp (fun u v => x.f (i + u) (j + v))) = .ok (max0 x sp i j, r, c) := by
  obtain ⟨v, r, c, h, h1, h2, h3⟩ := maxval_ok (Mat.of sp sp (fun u v => x.f (i + u) (j + v)))
  refine ⟨r, c, ?_⟩
  rw [h]
  have : v = max0 x sp i j := by
    apply le_antisymm
    · rw [le_max0]
      rcases h1 with ⟨hr, hc, e⟩ | h1
      · refine Or.inr ⟨r, c, hr, hc, ?_⟩
        rw [Mat.of_f' (r := sp) (c := sp) hr hc] at e
        rw [e]
      · exact Or.inl (le_of_eq h1.1)
    · rw [max0_le]
      refine ⟨h2, fun u w hu hw => ?_⟩
      have := h3 u w hu hw
      rwa [Mat.of_f' hu hw] at this
  rw [this]

theorem window_ok {x : Mat ℝ} {sp i j : Nat} (hsp : 0 < sp) (hi : i + sp ≤ x.nr) (hj : j + sp ≤ x.nc) :
    x.submat i j (i + sp - 1) (j + sp - 1) = .ok (Mat.of sp sp (fun u v => x.f (i + u) (j + v))) := by
  rw [Mat.submat_ok (by unfold Mat.InView; omega)]
  have e1 : ((i : Int) + sp - 1 - i + 1).toNat = sp := by omega
  have e2 : ((j : Int) + sp - 1 - j + 1).toNat = sp := by omega
  rw [e1, e2]
  simp only [Int.toNat_natCast]
  congr 1
  apply Mat.of_congr
  intro u v _ _
  rw [Nat.add_comm u, Nat.add_comm v]

/-- Storing `V q` in cell `q = i*ow + j` of a row, when all cells before hold theirs. -/
theorem store_step {n i j ow : Nat} {V : Nat → ℝ} (h : i * ow + j < n) :
    (Mat.of 1 n (fun _ q => if q < i * ow + j then V q else 0)).setAt 0 ((i : Int) * ow + j) (V (i * ow + j)) =
      .ok (Mat.of 1 n (fun _ q => if q < i * ow + (j + 1) then V q else 0)) := by
  rw [Mat.setAt_ok (i := 0) (a := 0) (b := i * ow + j) _ rfl (by push_cast; rfl) (by show 0 < 1; omega) h]
  congr 1
  simp only [Mat.of_nr, Mat.of_nc]
  apply Mat.of_congr
  intro p q hp hq
  rw [Mat.of_f' hp hq]
  by_cases hc : q = i * ow + j
  · rw [if_pos ⟨by omega, hc⟩, if_pos (by omega), hc]
  · rw [if_neg (fun hh => hc hh.2)]
    by_cases h2 : q < i * ow + j
    · rw [if_pos h2, if_pos (by omega)]
    · rw [if_neg h2, if_neg (by omega)]

theorem row_div_mod {i j ow : Nat} (hj : j < ow) : (i * ow + j) / ow = i ∧ (i * ow + j) % ow = j := by
  constructor
  · rw [Nat.add_comm, Nat.add_mul_div_right _ _ (by omega), Nat.div_eq_of_lt hj, Nat.zero_add]
  · rw [Nat.add_comm, Nat.add_mul_mod_self_right, Nat.mod_eq_of_lt hj]

theorem row_lt {i j oh ow : Nat} (hi : i < oh) (hj : j < ow) : i * ow + j < oh * ow := by
  calc i * ow + j < i * ow + ow := by omega
    _ = (i + 1) * ow := by ring
    _ ≤ oh * ow := Nat.mul_le_mul_right _ hi

theorem maxpool_ok {sp st : Nat} (hsp : 0 < sp) (hst : 0 < st) {x : Mat ℝ} (h1 : sp ≤ x.nr) (h2 : sp ≤ x.nc) (b1 : x.nr < 2 ^ 31)
    (b2 : x.nc < 2 ^ 31) {oh ow : Nat} (hoh : oh = (x.nr - sp) / st + 1) (how : ow = (x.nc - sp) / st + 1) :
    ∃ idx : Mat ℝ, idx.nr = 1 ∧ idx.nc = ow * oh * 2 ∧
      MaxPool.maxpool sp st x = .ok (Mat.of 1 (oh * ow) (fun _ q => max0 x sp (q / ow) (q % ow)), idx) := by
  unfold MaxPool.maxpool
  have hpos : 0 < ow := by rw [how]; exact Nat.succ_pos _
  have hlei : ∀ i, i < oh → i + sp ≤ x.nr := by
    intro i hi
    have := Nat.div_le_self (x.nr - sp) st
    omega
  have hlej : ∀ j, j < ow → j + sp ≤ x.nc := by
    intro i hi
    have := Nat.div_le_self (x.nc - sp) st
    omega
  rw [if_neg (by omega), if_neg (by omega)]
  simp only [Int.toNat_natCast]
  rw [outDim_ok h2 b2 hsp, outDim_ok h1 b1 hsp, ← hoh, ← how]
  unfold Mat.mk'
  have eD : ((ow : Int) * oh).toNat = oh * ow := by rw [← Nat.cast_mul, Int.toNat_natCast, Nat.mul_comm]
  have eD2 : ((ow : Int) * oh * 2).toNat = ow * oh * 2 := by
    rw [show ((ow : Int) * oh * 2) = ((ow * oh * 2 : Nat) : Int) by push_cast; ring, Int.toNat_natCast]
  rw [if_pos ⟨by omega, by positivity⟩, ok_bind, if_pos ⟨by omega, by positivity⟩, ok_bind, eD, eD2]
  simp only [Int.toNat_natCast, Int.toNat_one]
  let S : Nat → Nat → Mat ℝ := fun i j => Mat.of 1 (oh * ow) (fun _ q => if q < i * ow + j then max0 x sp (q / ow) (q % ow) else 0)
  have key : ∃ s', loop oh (fun (i : Nat) s => loop ow (fun (j : Nat) (s : Mat ℝ × Mat ℝ) => do
      let subimage ← x.submat i j (i + sp - 1) (j + sp - 1)
      let (val, row, col) ← MaxPool.maxval subimage
      let output ← s.1.setAt 0 (i * ow + j) val
      let index ← s.2.setAt 0 (i * ow * 2 + j) (row : ℝ)
      let index ← index.setAt 0 (i * ow * 2 + j + 1) (col : ℝ)
      .ok (output, index)) s) (Mat.of 1 (oh * ow) (fun _ _ => (0 : ℝ)), Mat.of 1 (ow * oh * 2) (fun _ _ => (0 : ℝ))) = .ok s' ∧
      (s'.1 = S oh 0 ∧ s'.2.nr = 1 ∧ s'.2.nc = ow * oh * 2) := by
    refine loop_inv (fun i (s : Mat ℝ × Mat ℝ) => s.1 = S i 0 ∧ s.2.nr = 1 ∧ s.2.nc = ow * oh * 2) ⟨?_, rfl, rfl⟩ ?_
    · apply Mat.of_congr
      intro p q _ _
      simp
    · rintro i ⟨o, idx⟩ hi ⟨g1, g2, g3⟩
      simp only at g1 g2 g3
      subst g1
      have hS : S (i + 1) 0 = S i ow := by
        apply Mat.of_congr
        intro p q _ _
        rw [show (i + 1) * ow + 0 = i * ow + ow by ring]
      rw [hS]
      refine loop_inv (fun j (s : Mat ℝ × Mat ℝ) => s.1 = S i j ∧ s.2.nr = 1 ∧ s.2.nc = ow * oh * 2) ⟨rfl, g2, g3⟩ ?_
      rintro j ⟨o, idx⟩ hj ⟨g1, g2, g3⟩
      simp only at g1 g2 g3
      subst g1
      rw [window_ok hsp (hlei i hi) (hlej j hj), ok_bind]
      obtain ⟨r, c, hmv⟩ := maxval_window x sp i j
      rw [hmv, ok_bind]
      simp only
      have hlt := row_lt hi hj
      have hst' := store_step (V := fun q => max0 x sp (q / ow) (q % ow)) hlt
      simp only [(row_div_mod hj).1, (row_div_mod hj).2] at hst'
      have hst2 : (S i j).setAt 0 ((i : Int) * ow + j) (max0 x sp i j) = .ok (S i (j + 1)) := hst'
      rw [hst2, ok_bind]
      have hi2 : i * ow * 2 + j + 1 < ow * oh * 2 := by
        have : (i + 1) * ow ≤ oh * ow := Nat.mul_le_mul_right _ hi
        have e : (i + 1) * ow = i * ow + ow := by ring
        have e2 : ow * oh * 2 = oh * ow * 2 := by ring
        omega
      rw [Mat.setAt_ok (i := 0) (a := 0) (b := i * ow * 2 + j) _ rfl (by push_cast; rfl) (by omega) (by omega), ok_bind,
        Mat.setAt_ok (i := 0) (a := 0) (b := i * ow * 2 + j + 1) _ rfl (by push_cast; rfl) (by simp only [Mat.of_nr]; omega) (by simp only [Mat.of_nc]; omega), ok_bind]
      exact ⟨_, rfl, rfl, g2, g3⟩
  obtain ⟨⟨o, idx⟩, hs, g1, g2, g3⟩ := key
  refine ⟨idx, g2, g3, ?_⟩
  refine Eq.trans hs ?_
  simp only at g1
  rw [g1]
  congr 2
  apply Mat.of_congr
  intro p q _ hq
  rw [if_pos (by omega)]

theorem meanval_window (x : Mat ℝ) (sp i j : Nat) :
    MeanPool.meanval (Mat.of sp sp (fun u v => x.f (i + u) (j + v))) = .ok (mean0 x sp i j) := by
  unfold MeanPool.meanval
  simp only [Mat.of_nr, Mat.of_nc]
  rw [loop_eq (fun t => ∑ u ∈ range t, ∑ v ∈ range sp, x.f (i + u) (j + v)) (by simp)]
  · rfl
  · intro t ht
    rw [loop_eq (fun s => (∑ u ∈ range t, ∑ v ∈ range sp, x.f (i + u) (j + v)) + ∑ v ∈ range s, x.f (i + t) (j + v)) (by simp)]
    · rw [Finset.sum_range_succ (n := t)]
    · intro s hs
      rw [Mat.at_ok (by exact ht) (by exact hs), ok_bind, Mat.of_f' ht hs, Finset.sum_range_succ (n := s), add_assoc]

theorem meanpool_ok {sp st : Nat} (hsp : 0 < sp) (hst : 0 < st) {x : Mat ℝ} (h1 : sp ≤ x.nr) (h2 : sp ≤ x.nc) (b1 : x.nr < 2 ^ 31)
    (b2 : x.nc < 2 ^ 31) {oh ow : Nat} (hoh : oh = (x.nr - sp) / st + 1) (how : ow = (x.nc - sp) / st + 1) :
    MeanPool.meanpool sp st x = .ok (Mat.of 1 (oh * ow) (fun _ q => mean0 x sp (q / ow) (q % ow))) := by
  unfold MeanPool.meanpool
  have hpos : 0 < ow := by rw [how]; exact Nat.succ_pos _
  have hlei : ∀ i, i < oh → i + sp ≤ x.nr := by
    intro i hi
    have := Nat.div_le_self (x.nr - sp) st
    omega
  have hlej : ∀ j, j < ow → j + sp ≤ x.nc := by
    intro i hi
    have := Nat.div_le_self (x.nc - sp) st
    omega
  rw [if_neg (by omega), if_neg (by omega)]
  simp only [Int.toNat_natCast]
  rw [outDim_ok h2 b2 hsp, outDim_ok h1 b1 hsp, ← hoh, ← how]
  unfold Mat.mk'
  have eD : ((ow : Int) * oh).toNat = oh * ow := by rw [← Nat.cast_mul, Int.toNat_natCast, Nat.mul_comm]
  rw [if_pos ⟨by omega, by positivity⟩, ok_bind, eD]
  simp only [Int.toNat_natCast, Int.toNat_one]
  let S : Nat → Nat → Mat ℝ := fun i j => Mat.of 1 (oh * ow) (fun _ q => if q < i * ow + j then mean0 x sp (q / ow) (q % ow) else 0)
  rw [loop_eq (fun i => S i 0)]
  · congr 1
    apply Mat.of_congr
    intro p q _ hq
    rw [if_pos (by omega)]
  · apply Mat.of_congr
    intro p q _ _
    simp
  · intro i hi
    have hS : S (i + 1) 0 = S i ow := by
      apply Mat.of_congr
      intro p q _ _
      rw [show (i + 1) * ow + 0 = i * ow + ow by ring]
    rw [hS]
    apply loop_eq (fun j => S i j) rfl
    intro j hj
    rw [window_ok hsp (hlei i hi) (hlej j hj), ok_bind, meanval_window, ok_bind]
    have hst' := store_step (V := fun q => mean0 x sp (q / ow) (q % ow)) (row_lt hi hj)
    simp only [(row_div_mod hj).1, (row_div_mod hj).2] at hst'
    exact hst'

namespace Conv

/-- `Conv2DLayer::forwardprop` in closed form, for every stride and batch. -/
theorem forward_ok (junk : Nat → Nat → ℝ) {L : Layer} {c : Conv} {h w pn nf sp st pd : Nat} (G : c.Geo h w pn nf sp st pd) {pa : Mat ℝ}
    (hm : 0 < pa.nr) (hc : pn * (w * h) ≤ pa.nc) (hr : L.W.nr = sp * pn) (hcc : L.W.nc = sp * nf) {oh ow os : Nat}
    (hoh : oh = Spec.outLen h sp st pd) (how : ow = Spec.outLen w sp st pd) (hos : os = oh * ow) :
    ∃ A : Mat ℝ, A = Mat.of pa.nr (os * nf) (fun _ q => ∑ j ∈ range pn,
        if st ∣ q % os / ow ∧ st ∣ q % os % ow then
          ∑ u ∈ range sp, ∑ v ∈ range sp, (padImg pa h w pd j).f (q % os / ow + u) (q % os % ow + v) * L.W.f (j * sp + u) (q / os * sp + v)
        else junk 0 (q % os)) ∧
      forwardprop junk L c pa = .ok (funcop A L.actfunc.act, { L with a := A }, { c with images := (List.range pa.nr).map (fun _ => padImg pa h w pd (pn - 1)) }) := by
  refine ⟨_, rfl, ?_⟩
  unfold forwardprop
  have hos' : os = Spec.outLen w sp st pd * Spec.outLen h sp st pd := by rw [hos, hoh, how, Nat.mul_comm]
  have hos0 : 0 < os := by rw [hos']; exact Nat.mul_pos (outLen_pos _ _ _ _) (outLen_pos _ _ _ _)
  rw [G.esp, G.est]
  let ker : Nat → Nat → Mat ℝ := fun j k => Mat.of sp sp (fun u v => L.W.f (j * sp + u) (k * sp + v))
  obtain ⟨e', he', -⟩ := channelLoops_ok (c := c) junk G hm hc () hos'
    (step := fun _ j k image _ => do
      let kernel ← spatialBlock sp L.W j k
      let o ← convolve junk st image kernel
      .ok (o, ()))
    (fun j k => Mat.of 1 (oh * ow) (fun _ q =>
      if st ∣ q / ow ∧ st ∣ q % ow then winSum (padImg pa h w pd j) (ker j k) (q / ow) (q % ow) else junk 0 q)) (fun _ => True) trivial
    (fun j k _ _ => ⟨rfl, hos.symm⟩) (by
      intro i j k e hi hj hk _
      refine ⟨(), ?_, trivial⟩
      rw [spatialBlock_ok G.hsp (by rw [hr, Nat.mul_comm]; exact Nat.mul_le_mul_left _ hj) (by rw [hcc, Nat.mul_comm]; exact Nat.mul_le_mul_left _ hk), ok_bind,
        convolve_ok junk G.hst (x := padImg pa h w pd j) (y := ker j k) G.hsp G.hsp G.fh G.fw G.bh G.bw (oh := oh) (ow := ow) hoh how, ok_bind])
  rw [he', ok_bind]
  have hA : Mat.of pa.nr (os * nf) (fun _ q => ∑ j ∈ range pn, (Mat.of 1 (oh * ow) (fun _ q' =>
      if st ∣ q' / ow ∧ st ∣ q' % ow then winSum (padImg pa h w pd j) (ker j (q / os)) (q' / ow) (q' % ow) else junk 0 q')).f 0 (q % os)) =
      Mat.of pa.nr (os * nf) (fun _ q => ∑ j ∈ range pn,
        if st ∣ q % os / ow ∧ st ∣ q % os % ow then
          ∑ u ∈ range sp, ∑ v ∈ range sp, (padImg pa h w pd j).f (q % os / ow + u) (q % os % ow + v) * L.W.f (j * sp + u) (q / os * sp + v)
        else junk 0 (q % os)) := by
    apply Mat.of_congr
    intro r q _ _
    refine sum_congr rfl fun j hj => ?_
    rw [Mat.of_f' (by omega) (by rw [← hos]; exact Nat.mod_lt _ hos0)]
    by_cases hcd : st ∣ q % os / ow ∧ st ∣ q % os % ow
    · rw [if_pos hcd, if_pos hcd]
      unfold winSum
      refine sum_congr rfl fun u hu => sum_congr rfl fun v hv => ?_
      congr 1
      exact Mat.of_f' (mem_range.1 hu) (mem_range.1 hv)
    · rw [if_neg hcd, if_neg hcd]
  simp only
  rw [hA]

end Conv

/-- `MaxPoolLayer::forwardprop` in closed form. -/
theorem MaxPool.forward_ok (junk : Nat → Nat → ℝ) {L : Layer} {c : Conv} {h w pn nf sp st pd : Nat} (G : c.Geo h w pn nf sp st pd) {pa : Mat ℝ}
    (hm : 0 < pa.nr) (hc : pn * (w * h) ≤ pa.nc) {oh ow os : Nat}
    (hoh : oh = Spec.outLen h sp st pd) (how : ow = Spec.outLen w sp st pd) (hos : os = oh * ow) :
    ∃ A idx : Mat ℝ, A = Mat.of pa.nr (os * nf) (fun _ q => ∑ j ∈ range pn, max0 (Conv.padImg pa h w pd j) sp (q % os / ow) (q % os % ow)) ∧
      MaxPool.forwardprop junk L c pa =
        .ok (funcop A L.actfunc.act, { L with a := A }, { c with images := (List.range pa.nr).map (fun _ => Conv.padImg pa h w pd (pn - 1)) }, idx) := by
  have hos' : os = Spec.outLen w sp st pd * Spec.outLen h sp st pd := by rw [hos, hoh, how, Nat.mul_comm]
  have hos0 : 0 < os := by rw [hos']; exact Nat.mul_pos (Conv.outLen_pos _ _ _ _) (Conv.outLen_pos _ _ _ _)
  have how' : ow * oh = os := by rw [hos, Nat.mul_comm]
  unfold MaxPool.forwardprop Mat.mk'
  rw [G.esp, G.est, G.eos, ← hos', if_pos ⟨by omega, by omega⟩, ok_bind]
  have e2 : ((os : Int) * 2).toNat = os * 2 := by omega
  have e3 : ((pa.nr : Nat) : Int).toNat = pa.nr := Int.toNat_natCast _
  simp only [e2, e3]
  have hidx : ∀ j, ∃ idx : Mat ℝ, idx.nr = 1 ∧ idx.nc = ow * oh * 2 ∧
      MaxPool.maxpool sp st (Conv.padImg pa h w pd j) = .ok (Mat.of 1 (oh * ow) (fun _ q => max0 (Conv.padImg pa h w pd j) sp (q / ow) (q % ow)), idx) :=
    fun j => maxpool_ok (x := Conv.padImg pa h w pd j) G.hsp G.hst G.fh G.fw G.bh G.bw hoh how
  obtain ⟨e', he', -⟩ := Conv.channelLoops_ok (c := c) junk G hm hc (Mat.of pa.nr (os * 2) junk) hos'
    (step := fun i _ _ image indexes => do
      let (o, index) ← MaxPool.maxpool sp st image
      let indexes ← indexes.updSubmat (fun _ v => v) i 0 i ((os : Int) * 2 - 1) index
      .ok (o, indexes))
    (fun j _ => Mat.of 1 (oh * ow) (fun _ q => max0 (Conv.padImg pa h w pd j) sp (q / ow) (q % ow)))
    (fun idx => idx.nr = pa.nr ∧ idx.nc = os * 2) ⟨rfl, rfl⟩ (fun j k _ _ => ⟨rfl, hos.symm⟩) (by
      intro i j k e hi hj hk hQ
      obtain ⟨idx, i1, i2, i3⟩ := hidx j
      rw [i3, ok_bind]
      simp only
      rw [Mat.updSubmat_ok (by unfold Mat.InView; omega) (by rw [i1]; omega) (by rw [i2, how']; omega), ok_bind]
      exact ⟨_, rfl, hQ⟩)
  refine ⟨_, e', rfl, ?_⟩
  rw [he', ok_bind]
  have hA : Mat.of pa.nr (os * nf) (fun _ q => ∑ j ∈ range pn, (Mat.of 1 (oh * ow) (fun _ q =>
      max0 (Conv.padImg pa h w pd j) sp (q / ow) (q % ow))).f 0 (q % os)) =
      Mat.of pa.nr (os * nf) (fun _ q => ∑ j ∈ range pn, max0 (Conv.padImg pa h w pd j) sp (q % os / ow) (q % os % ow)) := by
    apply Mat.of_congr
    intro r q _ _
    refine sum_congr rfl fun j hj => ?_
    rw [Mat.of_f' (by omega) (by rw [← hos]; exact Nat.mod_lt _ hos0)]
  simp only
  rw [hA]

/-- `MeanPoolLayer::forwardprop` in closed form. -/
theorem MeanPool.forward_ok (junk : Nat → Nat → ℝ) {L : Layer} {c : Conv} {h w pn nf sp st pd : Nat} (G : c.Geo h w pn nf sp st pd) {pa : Mat ℝ}
    (hm : 0 < pa.nr) (hc : pn * (w * h) ≤ pa.nc) {oh ow os : Nat}
    (hoh : oh = Spec.outLen h sp st pd) (how : ow = Spec.outLen w sp st pd) (hos : os = oh * ow) :
    ∃ A : Mat ℝ, A = Mat.of pa.nr (os * nf) (fun _ q => ∑ j ∈ range pn, mean0 (Conv.padImg pa h w pd j) sp (q % os / ow) (q % os % ow)) ∧
      MeanPool.forwardprop junk L c pa =
        .ok (funcop A L.actfunc.act, { L with a := A }, { c with images := (List.range pa.nr).map (fun _ => Conv.padImg pa h w pd (pn - 1)) }) := by
  have hos' : os = Spec.outLen w sp st pd * Spec.outLen h sp st pd := by rw [hos, hoh, how, Nat.mul_comm]
  have hos0 : 0 < os := by rw [hos']; exact Nat.mul_pos (Conv.outLen_pos _ _ _ _) (Conv.outLen_pos _ _ _ _)
  refine ⟨_, rfl, ?_⟩
  unfold MeanPool.forwardprop
  rw [G.esp, G.est]
  obtain ⟨e', he', -⟩ := Conv.channelLoops_ok (c := c) junk G hm hc () hos'
    (step := fun _ _ _ image _ => do
      let o ← MeanPool.meanpool sp st image
      .ok (o, ()))
    (fun j _ => Mat.of 1 (oh * ow) (fun _ q => mean0 (Conv.padImg pa h w pd j) sp (q / ow) (q % ow)))
    (fun _ => True) trivial (fun j k _ _ => ⟨rfl, hos.symm⟩) (by
      intro i j k e hi hj hk _
      refine ⟨(), ?_, trivial⟩
      rw [meanpool_ok (x := Conv.padImg pa h w pd j) G.hsp G.hst G.fh G.fw G.bh G.bw hoh how, ok_bind])
  rw [he', ok_bind]
  have hA : Mat.of pa.nr (os * nf) (fun _ q => ∑ j ∈ range pn, (Mat.of 1 (oh * ow) (fun _ q =>
      mean0 (Conv.padImg pa h w pd j) sp (q / ow) (q % ow))).f 0 (q % os)) =
      Mat.of pa.nr (os * nf) (fun _ q => ∑ j ∈ range pn, mean0 (Conv.padImg pa h w pd j) sp (q % os / ow) (q % os % ow)) := by
    apply Mat.of_congr
    intro r q _ _
    refine sum_congr rfl fun j hj => ?_
    rw [Mat.of_f' (by omega) (by rw [← hos]; exact Nat.mod_lt _ hos0)]
  simp only
  rw [hA]

end
end Nnet.NN
