import Verif.NN.ConvLemmas
import Verif.NN.ConvSpec
/-! # The loops over samples and channels -/
namespace Nnet.NN
open Finset
noncomputable section
namespace Conv

theorem new_geo (dist : Draws) (junk : Nat → Nat → ℝ) {h w pn nf sp st pd : Nat} (lrate : ℝ) (act : ActFunc ℝ) (hh : 0 < h) (hw : 0 < w)
    (hpn : 0 < pn) (hnf : 0 < nf) (hsp : 0 < sp) (hst : 0 < st) (fh : sp ≤ h + 2 * pd) (fw : sp ≤ w + 2 * pd) (bh : h + 2 * pd < 2 ^ 31)
    (bw : w + 2 * pd < 2 ^ 31) :
    ∃ L c, new dist junk w h pn nf sp st pd lrate act = .ok (L, c) ∧ c.Geo h w pn nf sp st pd ∧ L.W.nr = sp * pn ∧ L.W.nc = sp * nf ∧
      L.grad.nr = sp * pn ∧ L.grad.nc = sp * nf ∧ L.actfunc = act ∧ L.lrate = lrate ∧ L.lambda = 0 := by
  unfold new Layer.new Layer.newDev Mat.mk'
  have hp : 0 < sp * pn := Nat.mul_pos hsp hpn
  have e1 : ((sp : Int) * pn - 1 + 1) = ((sp * pn : Nat) : Int) := by push_cast; ring
  have e2 : ((sp : Int) * nf) = ((sp * nf : Nat) : Int) := by push_cast; ring
  rw [e1, e2, if_pos (by omega), ok_bind, ok_bind, randominit_ok, ok_bind, randominit_ok, ok_bind, if_neg (by omega)]
  have l1 : ((w : Int) - sp + 2 * pd).tdiv st + 1 = ((Spec.outLen w sp st pd : Nat) : Int) := by
    have : ((w : Int) - sp + 2 * pd) = ((w + 2 * pd - sp : Nat) : Int) := by omega
    rw [this, Int.tdiv_eq_ediv_of_nonneg (by omega)]
    unfold Spec.outLen
    push_cast
    rfl
  have l2 : ((h : Int) - sp + 2 * pd).tdiv st + 1 = ((Spec.outLen h sp st pd : Nat) : Int) := by
    have : ((h : Int) - sp + 2 * pd) = ((h + 2 * pd - sp : Nat) : Int) := by omega
    rw [this, Int.tdiv_eq_ediv_of_nonneg (by omega)]
    unfold Spec.outLen
    push_cast
    rfl
  simp only [l1, l2]
  refine ⟨_, _, rfl, ⟨rfl, rfl, by push_cast; rfl, rfl, rfl, by push_cast; rfl, rfl, rfl, rfl, rfl, rfl, hh, hw, hpn, hnf, hsp, hst, fh, fw, bh, bw⟩,
    ?_, ?_, ?_, ?_, rfl, rfl, rfl⟩ <;> exact Int.toNat_natCast _

theorem outLen_pos (n sp st pd : Nat) : 0 < Spec.outLen n sp st pd := Nat.succ_pos _

/-- The padded image of channel `j`. -/
def padImg (pa : Mat ℝ) (h w pd j : Nat) : Mat ℝ := Mat.of (h + 2 * pd) (w + 2 * pd) (padPix pa h w pd j)

theorem image_ok {pa : Mat ℝ} {h w pd j : Nat} (hm : 0 < pa.nr) (hh : 0 < h) (hw : 0 < w) (hc : (j + 1) * (w * h) ≤ pa.nc) :
    (do let img ← toimage pa j w h; addzeropadding pd img : Res (Mat ℝ)) = .ok (padImg pa h w pd j) := by
  rw [toimage_ok hm hh hw hc, ok_bind, addzeropadding_ok]
  rfl

/-- `setSlice` on a list given by a function. -/
theorem setSlice_map {m i : Nat} {I : Nat → Mat ℝ} {x : Mat ℝ} (hi : i < m) (h1 : (I i).nr = x.nr) (h2 : (I i).nc = x.nc) :
    setSlice ((List.range m).map I) i x = .ok ((List.range m).map (fun t => if t = i then x else I t)) := by
  unfold setSlice
  have : ((List.range m).map I)[i]? = some (I i) := by simp [hi]
  rw [this]
  simp only
  rw [if_pos ⟨h1, h2⟩]
  congr 1
  apply List.ext_getElem?
  intro t
  rw [List.getElem?_set]
  by_cases ht : i = t
  · subst ht; simp [hi]
  · rw [if_neg ht]
    by_cases hm : t < m
    · simp [hm, Ne.symm ht]
    · simp [hm]

theorem getSlice_map {m i : Nat} {I : Nat → Mat ℝ} (hi : i < m) : getSlice ((List.range m).map I) i = .ok (I i) := by
  unfold getSlice
  have : ((List.range m).map I)[i]? = some (I i) := by simp [hi]
  rw [this]

theorem addRowBlock_ok {os nf k i m : Nat} {g : Nat → Nat → ℝ} {v : Mat ℝ} (hos : 0 < os) (hi : i < m) (hk : k < nf) (h1 : v.nr = 1) (h2 : v.nc = os) :
    addRowBlock (Mat.of m (os * nf) g) i k os v =
      .ok (Mat.of m (os * nf) (fun r c => if r = i ∧ c / os = k then g r c + v.f 0 (c % os) else g r c)) := by
  unfold addRowBlock
  have b2 : (k : Int) * os = ((k * os : Nat) : Int) := by push_cast; rfl
  have a2 : ((k : Int) + 1) * os - 1 = ((k * os + (os - 1) : Nat) : Int) := by rw [Nat.cast_add, Nat.cast_sub hos]; push_cast; ring
  have hle : (k + 1) * os ≤ os * nf := by rw [Nat.mul_comm os nf]; exact Nat.mul_le_mul_right _ hk
  have c2 : (k + 1) * os = k * os + os := by ring
  rw [a2, b2, Mat.updSubmat_ok (by unfold Mat.InView; simp only [Mat.of_nr, Mat.of_nc]; omega) (by rw [h1]; omega) (by rw [h2]; omega)]
  congr 1
  simp only [Mat.of_nr, Mat.of_nc]
  apply Mat.of_congr
  intro r c hr hc
  rw [Mat.of_f' hr hc]
  have hdm : c / os * os + c % os = c := Nat.div_add_mod' c os
  have hlt : c % os < os := Nat.mod_lt _ hos
  by_cases hcond : r = i ∧ c / os = k
  · obtain ⟨rfl, hk2⟩ := hcond
    rw [hk2] at hdm
    rw [if_pos (by omega), if_pos ⟨rfl, hk2⟩]
    congr 2 <;> (simp only [Int.toNat_natCast]; omega)
  · rw [if_neg hcond, if_neg]
    rintro ⟨q1, q2, q3, q4⟩
    apply hcond
    refine ⟨by omega, ?_⟩
    have d1 : k * os ≤ c := by omega
    have d2 : c < (k + 1) * os := by omega
    exact le_antisymm (Nat.lt_succ_iff.1 (Nat.div_lt_of_lt_mul (by rw [Nat.mul_comm]; exact d2))) ((Nat.le_div_iff_mul_le hos).2 d1)

/-- The loops over samples and channels: every row of the result is the sum over the input channels. -/
theorem channelLoops_ok {σ : Type _} (junk : Nat → Nat → ℝ) {c : Conv} {h w pn nf sp st pd : Nat} (G : c.Geo h w pn nf sp st pd) {pa : Mat ℝ}
    (hm : 0 < pa.nr) (hc : pn * (w * h) ≤ pa.nc) (e0 : σ) {os : Nat} (hos : os = Spec.outLen w sp st pd * Spec.outLen h sp st pd)
    {step : (i : Nat) → (j : Nat) → (k : Nat) → Mat ℝ → σ → Res (Mat ℝ × σ)} (P : Nat → Nat → Mat ℝ) (Q : σ → Prop) (hQ0 : Q e0)
    (hP : ∀ j k, j < pn → k < nf → (P j k).nr = 1 ∧ (P j k).nc = os)
    (hstep : ∀ i j k e, i < pa.nr → j < pn → k < nf → Q e → ∃ e', step i j k (padImg pa h w pd j) e = .ok (P j k, e') ∧ Q e') :
    ∃ e', channelLoops junk c pa e0 step =
      .ok (Mat.of pa.nr (os * nf) (fun _ q => ∑ j ∈ range pn, (P j (q / os)).f 0 (q % os)), (List.range pa.nr).map (fun _ => padImg pa h w pd (pn - 1)), e') ∧
      Q e' := by
  have hos0 : 0 < os := by rw [hos]; exact Nat.mul_pos (outLen_pos _ _ _ _) (outLen_pos _ _ _ _)
  unfold channelLoops newImages Mat.mk'
  rw [G.eos, G.enf, G.eh, G.ew, G.epd, G.epn, ← hos]
  rw [if_pos ⟨by omega, by positivity⟩, ok_bind, if_pos ⟨by omega, by omega⟩, ok_bind, ok_bind]
  have eD : ((os : Int) * nf).toNat = os * nf := by rw [← Nat.cast_mul, Int.toNat_natCast]
  have eH : ((h : Int) + 2 * pd).toNat = h + 2 * pd := by omega
  have eW : ((w : Int) + 2 * pd).toNat = w + 2 * pd := by omega
  simp only [eD, eH, eW, Int.toNat_natCast]
  -- the state before iteration (i, j, k)
  let A : Nat → Nat → Nat → Mat ℝ := fun i j k => Mat.of pa.nr (os * nf) (fun r q =>
    if r < i then ∑ j ∈ range pn, (P j (q / os)).f 0 (q % os)
    else if r = i then (∑ j' ∈ range j, (P j' (q / os)).f 0 (q % os)) + (if q / os < k then (P j (q / os)).f 0 (q % os) else 0) else 0)
  let I : Nat → Nat → Nat → Mat ℝ := fun i j t =>
    if t < i then padImg pa h w pd (pn - 1) else if t = i ∧ 0 < j then padImg pa h w pd (j - 1) else Mat.of (h + 2 * pd) (w + 2 * pd) junk
  have hI : ∀ i j t, (I i j t).nr = h + 2 * pd ∧ (I i j t).nc = w + 2 * pd := by
    intro i j t
    simp only [I]
    split
    · exact ⟨rfl, rfl⟩
    · split <;> exact ⟨rfl, rfl⟩
  have hinit : List.replicate pa.nr (Mat.of (h + 2 * pd) (w + 2 * pd) junk) = (List.range pa.nr).map (I 0 0) := by
    apply List.ext_getElem?
    intro t
    by_cases ht : t < pa.nr
    · simp [ht, I]
    · simp [ht]
  have hA0 : Mat.of pa.nr (os * nf) (fun _ _ => (0 : ℝ)) = A 0 0 0 := by
    apply Mat.of_congr
    intro r q _ _
    simp
  have hq : ∀ q, q < os * nf → q / os < nf := fun q hq => Nat.div_lt_of_lt_mul hq
  obtain ⟨s', hs', hp⟩ : ∃ s', loop pa.nr (fun i s => (do
      let _sample ← pa.row i
      loop pn (fun j (s : Mat ℝ × List (Mat ℝ) × σ) => do
        let img ← toimage pa j w h
        let padded ← addzeropadding pd img
        let images ← setSlice s.2.1 i padded
        loop nf (fun k (s : Mat ℝ × List (Mat ℝ) × σ) => do
          let image ← getSlice s.2.1 i
          let (partialoutput, e) ← step i j k image s.2.2
          let a ← addRowBlock s.1 i k os partialoutput
          .ok (a, s.2.1, e)) (s.1, images, s.2.2)) s : Res (Mat ℝ × List (Mat ℝ) × σ)))
      (Mat.of pa.nr (os * nf) (fun _ _ => (0 : ℝ)), List.replicate pa.nr (Mat.of (h + 2 * pd) (w + 2 * pd) junk), e0) = .ok s' ∧
      (s'.1 = A pa.nr 0 0 ∧ s'.2.1 = (List.range pa.nr).map (I pa.nr 0) ∧ Q s'.2.2) := by
    refine loop_inv (fun i (s : Mat ℝ × List (Mat ℝ) × σ) => s.1 = A i 0 0 ∧ s.2.1 = (List.range pa.nr).map (I i 0) ∧ Q s.2.2) ⟨hA0, hinit, hQ0⟩ ?_
    rintro i ⟨a, im, e⟩ hi ⟨h1, h2, h3⟩
    simp only at h1 h2 h3
    subst h1 h2
    have hrow : pa.row i = .ok (Mat.of 1 pa.nc (fun _ j => pa.f i j)) := by
      unfold Mat.row
      rw [if_pos ⟨by omega, by omega⟩]
      simp
    rw [hrow, ok_bind]
    have hA1 : A (i + 1) 0 0 = A i pn 0 := by
      apply Mat.of_congr
      intro r q _ _
      by_cases r1 : r < i
      · rw [if_pos r1, if_pos (by omega)]
      · by_cases r2 : r = i
        · subst r2; simp
        · rw [if_neg (by omega), if_neg r1, if_neg r2]; simp
    have hI1 : (List.range pa.nr).map (I (i + 1) 0) = (List.range pa.nr).map (I i pn) := by
      apply List.map_congr_left
      intro t _
      simp only [I]
      have := G.hpn
      by_cases t1 : t < i
      · rw [if_pos t1, if_pos (by omega)]
      · by_cases t2 : t = i
        · rw [if_pos (by omega), if_neg t1, if_pos ⟨t2, this⟩]
        · rw [if_neg (by omega), if_neg (by omega), if_neg t1, if_neg (by omega)]
    rw [hA1, hI1]
    refine loop_inv (fun j (s : Mat ℝ × List (Mat ℝ) × σ) => s.1 = A i j 0 ∧ s.2.1 = (List.range pa.nr).map (I i j) ∧ Q s.2.2) ⟨rfl, rfl, h3⟩ ?_
    · rintro j ⟨a, im, e⟩ hj ⟨h1, h2, h3⟩
      simp only at h1 h2 h3
      subst h1 h2
      have hcj : (j + 1) * (w * h) ≤ pa.nc := le_trans (Nat.mul_le_mul_right _ hj) hc
      rw [toimage_ok hm G.hh G.hw hcj, ok_bind, addzeropadding_ok, ok_bind]
      have hset := setSlice_map (m := pa.nr) (I := I i j) (x := padImg pa h w pd j) hi (hI i j i).1 (hI i j i).2
      have hI2 : (List.range pa.nr).map (fun t => if t = i then padImg pa h w pd j else I i j t) = (List.range pa.nr).map (I i (j + 1)) := by
        apply List.map_congr_left
        intro t _
        simp only [I]
        by_cases t1 : t < i
        · rw [if_neg (by omega), if_pos t1, if_pos t1]
        · rw [if_neg t1, if_neg t1]
          by_cases t2 : t = i
          · rw [if_pos t2, if_pos ⟨t2, by omega⟩]; simp
          · rw [if_neg t2, if_neg (by omega), if_neg (by omega)]
      rw [hI2] at hset
      have hset' : setSlice ((List.range pa.nr).map (I i j)) i (Mat.of (h + 2 * pd) (w + 2 * pd) (fun r c =>
          if pd ≤ r ∧ r < pd + h ∧ pd ≤ c ∧ c < pd + w then rawPix pa h w j (r - pd) (c - pd) else 0)) = _ := hset
      simp only
      rw [hset', ok_bind]
      have hA1 : A i (j + 1) 0 = A i j nf := by
        apply Mat.of_congr
        intro r q _ hqq
        by_cases r1 : r < i
        · rw [if_pos r1, if_pos r1]
        · by_cases r2 : r = i
          · subst r2; simp [Finset.sum_range_succ, hq q hqq]
          · rw [if_neg r1, if_neg r2, if_neg r1, if_neg r2]
      rw [hA1]
      refine loop_inv (fun k (s : Mat ℝ × List (Mat ℝ) × σ) => s.1 = A i j k ∧ s.2.1 = (List.range pa.nr).map (I i (j + 1)) ∧ Q s.2.2) ⟨rfl, rfl, h3⟩ ?_
      · rintro k ⟨a, im, e⟩ hk ⟨h1, h2, h3⟩
        simp only at h1 h2 h3
        subst h1 h2
        rw [getSlice_map hi, ok_bind]
        have hIi : I i (j + 1) i = padImg pa h w pd j := by simp [I]
        rw [hIi]
        obtain ⟨e', he', hQ'⟩ := hstep i j k e hi hj hk h3
        rw [he', ok_bind]
        simp only
        rw [addRowBlock_ok hos0 hi hk (hP j k hj hk).1 (hP j k hj hk).2, ok_bind]
        refine ⟨_, rfl, ?_, rfl, hQ'⟩
        apply Mat.of_congr
        intro r q _ _
        by_cases r1 : r < i
        · rw [if_neg (by omega), if_pos r1, if_pos r1]
        · rw [if_neg r1, if_neg r1]
          by_cases r2 : r = i
          · rw [if_pos r2, if_pos r2]
            by_cases q1 : q / os = k
            · rw [if_pos ⟨r2, q1⟩, if_neg (by omega), if_pos (by omega), q1, add_zero]
            · rw [if_neg (fun hh => q1 hh.2)]
              by_cases q2 : q / os < k
              · rw [if_pos q2, if_pos (by omega)]
              · rw [if_neg q2, if_neg (by omega)]
          · rw [if_neg (fun hh => r2 hh.1), if_neg r2, if_neg r2]
  refine ⟨s'.2.2, ?_, hp.2.2⟩
  refine Eq.trans hs' ?_
  obtain ⟨s1, s2, s3⟩ := s'
  obtain ⟨p1, p2, p3⟩ := hp
  simp only at p1 p2
  rw [p1, p2]
  congr 2
  · apply Mat.of_congr
    intro r q hr _
    rw [if_pos hr]
  · congr 1
    apply List.map_congr_left
    intro t ht
    simp only [I]
    rw [if_pos (List.mem_range.1 ht)]

end Conv
end
end Nnet.NN
