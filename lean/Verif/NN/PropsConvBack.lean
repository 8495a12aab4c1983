import Verif.NN.PropsConv
import Mathlib.Analysis.Calculus.Deriv.Mul
/-!
# C49 the backward pass of a convolution layer
-/
namespace Nnet.NN
open Finset
noncomputable section

theorem Mat.ext_map {m m' : Mat ℝ} {g : ℝ → ℝ} {k : ℝ} (hg : ∀ x, g x = k) (hr : m.nr = m'.nr) (hc : m.nc = m'.nc) : m.map g = m'.map g := by
  refine Mat.ext' hr hc ?_
  intro i j (hi : i < m.nr) (hj : j < m.nc)
  rw [Mat.map_f' hi hj, Mat.map_f' (by omega) (by omega), hg, hg]

/-- The activation derivative is applied to the incoming delta itself. With an activation of constant derivative, such as the identity, the
incoming delta is therefore ignored: only its size matters. For every layer object, geometry and stored images. -/
theorem C49_ignores_delta (junk : Nat → Nat → ℝ) (L : Layer) (c : Conv) (k : ℝ) (hk : ∀ x, L.actfunc.actd x = k) (del del' : Mat ℝ)
    (hr : del.nr = del'.nr) (hc : del.nc = del'.nc) : Conv.backprop junk L c del = Conv.backprop junk L c del' := by
  unfold Conv.backprop
  have : funcop del L.actfunc.actd = funcop del' L.actfunc.actd := Mat.ext_map hk hr hc
  rw [this, hr]

namespace Conv

theorem updBlock_ok {pn nf sp j k : Nat} {g : Nat → Nat → ℝ} {v : Mat ℝ} (hsp : 0 < sp) (hj : j < pn) (hk : k < nf) (h1 : v.nr = sp) (h2 : v.nc = sp) :
    (Mat.of (sp * pn) (sp * nf) g).updSubmat (· + ·) ((j : Int) * sp) ((k : Int) * sp) (((j : Int) + 1) * sp - 1) (((k : Int) + 1) * sp - 1) v =
      .ok (Mat.of (sp * pn) (sp * nf) (fun r s => if r / sp = j ∧ s / sp = k then g r s + v.f (r % sp) (s % sp) else g r s)) := by
  have a1 : ((j : Int) + 1) * sp - 1 = ((j * sp + (sp - 1) : Nat) : Int) := by rw [Nat.cast_add, Nat.cast_sub hsp]; push_cast; ring
  have a2 : ((k : Int) + 1) * sp - 1 = ((k * sp + (sp - 1) : Nat) : Int) := by rw [Nat.cast_add, Nat.cast_sub hsp]; push_cast; ring
  have b1 : (j : Int) * sp = ((j * sp : Nat) : Int) := by push_cast; rfl
  have b2 : (k : Int) * sp = ((k * sp : Nat) : Int) := by push_cast; rfl
  have c1 : (j + 1) * sp = j * sp + sp := by ring
  have c2 : (k + 1) * sp = k * sp + sp := by ring
  have l1 : (j + 1) * sp ≤ sp * pn := by rw [Nat.mul_comm sp]; exact Nat.mul_le_mul_right _ hj
  have l2 : (k + 1) * sp ≤ sp * nf := by rw [Nat.mul_comm sp]; exact Nat.mul_le_mul_right _ hk
  rw [a1, a2, b1, b2, Mat.updSubmat_ok (by unfold Mat.InView; simp only [Mat.of_nr, Mat.of_nc]; omega) (by rw [h1]; omega) (by rw [h2]; omega)]
  congr 1
  simp only [Mat.of_nr, Mat.of_nc]
  apply Mat.of_congr
  intro r s hr hs
  rw [Mat.of_f' hr hs]
  have key : ∀ n t : Nat, n / sp = t ↔ t * sp ≤ n ∧ n ≤ t * sp + (sp - 1) := by
    intro n t
    have e : (t + 1) * sp = t * sp + sp := by ring
    constructor
    · rintro rfl
      have h1 := Nat.div_add_mod' n sp
      have h2 := Nat.mod_lt n hsp
      omega
    · rintro ⟨h1, h2⟩
      exact Nat.div_eq_of_lt_le h1 (by omega)
  by_cases hc : r / sp = j ∧ s / sp = k
  · have h1 := (key r j).1 hc.1
    have h2 := (key s k).1 hc.2
    have d1 := Nat.div_add_mod' r sp
    have d2 := Nat.div_add_mod' s sp
    rw [hc.1] at d1
    rw [hc.2] at d2
    rw [if_pos (by omega), if_pos hc]
    congr 2 <;> (simp only [Int.toNat_natCast]; omega)
  · rw [if_neg hc, if_neg]
    rintro ⟨q1, q2, q3, q4⟩
    exact hc ⟨(key r j).2 (by omega), (key s k).2 (by omega)⟩

theorem flip_ok {W : Mat ℝ} {sp j k : Nat} (h0 : 0 < sp) (h1 : (j + 1) * sp ≤ W.nr) (h2 : (k + 1) * sp ≤ W.nc) :
    flip sp W j k = .ok (Mat.of sp sp (fun u v => W.f (j * sp + (sp - 1 - u)) (k * sp + (sp - 1 - v)))) := by
  unfold flip
  rw [spatialBlock_ok h0 h1 h2, ok_bind]
  unfold Mat.flip
  simp only [Mat.of_nr, Mat.of_nc]
  congr 1
  apply Mat.of_congr
  intro u v hu hv
  rw [Mat.of_f' (by omega) (by omega)]

/-- `convolve` with stride 1. -/
theorem convolve_one (junk : Nat → Nat → ℝ) {x y : Mat ℝ} (hy1 : 0 < y.nr) (hy2 : 0 < y.nc) (h1 : y.nr ≤ x.nr)
    (h2 : y.nc ≤ x.nc) (b1 : x.nr < 2 ^ 31) (b2 : x.nc < 2 ^ 31) {oh ow : Nat} (hoh : oh + y.nr = x.nr + 1) (how : ow + y.nc = x.nc + 1) :
    convolve junk 1 x y = .ok (Mat.of 1 (oh * ow) (fun _ q => winSum x y (q / ow) (q % ow))) := by
  have e1 : oh = (x.nr - y.nr) / 1 + 1 := by rw [Nat.div_one]; omega
  have e2 : ow = (x.nc - y.nc) / 1 + 1 := by rw [Nat.div_one]; omega
  refine (convolve_ok junk (st := 1) Nat.one_pos hy1 hy2 h1 h2 b1 b2 e1 e2).trans ?_
  congr 1
  apply Mat.of_congr
  intro p q _ _
  rw [if_pos ⟨one_dvd _, one_dvd _⟩]

end Conv

/-- The image `toimage` makes of output channel `k` of row `i` of the delta after the activation derivative: column by column, although the
forward pass wrote the outputs row by row. -/
def dImg (g : ℝ → ℝ) (del : Mat ℝ) (oh ow i k : Nat) : Mat ℝ := Mat.of oh ow (fun a b => g (del.f i (k * (oh * ow) + b * oh + a)))

/-- One pass of the inner loop body of `backprop` for stride 1 and `spatial = 2 * padding + 1`. -/
theorem Conv.back_body (junk : Nat → Nat → ℝ) {L : Layer} {c : Conv} {h w pn nf sp pd : Nat} (G : c.Geo h w pn nf sp 1 pd) (hsame : sp = 2 * pd + 1)
    {m i j k : Nat} (hi : i < m) (hj : j < pn) (hk : k < nf) {I : Nat → Mat ℝ} (hI : (I i).nr = h + 2 * pd ∧ (I i).nc = w + 2 * pd)
    (himg : c.images = (List.range m).map I) (hr : L.W.nr = sp * pn) (hcc : L.W.nc = sp * nf) {D : Mat ℝ} (hD : D.nr = h ∧ D.nc = w)
    (fd fg : Nat → Nat → ℝ) :
    (do
      let image ← getSlice c.images i
      let partialgrad ← convolve junk c.stride image D
      let partialgrad ← (if 0 ≤ c.spatial then .ok (partialgrad.reshape c.spatial.toNat c.spatial.toNat) else .error .throw : Res _)
      let grad ← (Mat.of (sp * pn) (sp * nf) fg).updSubmat (· + ·) (j * c.spatial) (k * c.spatial) (((j : Int) + 1) * c.spatial - 1) (((k : Int) + 1) * c.spatial - 1) partialgrad
      let paddimg ← addzeropadding c.padding D
      let kernel ← flip c.spatial L.W j k
      let partialdelta ← convolve junk c.stride paddimg kernel
      let delta ← addRowBlock (Mat.of m (w * h * pn) fd) i j c.inputsize partialdelta
      .ok (delta, grad) : Res (Mat ℝ × Mat ℝ)) =
    .ok (Mat.of m (w * h * pn) (fun r q => if r = i ∧ q / (w * h) = j then fd r q + ∑ u ∈ range sp, ∑ v ∈ range sp,
          (if pd ≤ q % (w * h) / w + u ∧ q % (w * h) / w + u < pd + h ∧ pd ≤ q % (w * h) % w + v ∧ q % (w * h) % w + v < pd + w then
            D.f (q % (w * h) / w + u - pd) (q % (w * h) % w + v - pd) else 0) * L.W.f (j * sp + (sp - 1 - u)) (k * sp + (sp - 1 - v)) else fd r q),
      Mat.of (sp * pn) (sp * nf) (fun r s => if r / sp = j ∧ s / sp = k then fg r s + winSum (I i) D (s % sp) (r % sp) else fg r s)) := by
  have hsp := G.hsp
  have hh := G.hh
  have hw := G.hw
  have bh := G.bh
  have bw := G.bw
  rw [himg, getSlice_map hi, ok_bind, G.est, G.esp, G.epd, G.es, Nat.cast_one]
  rw [convolve_one junk (x := I i) (y := D) (oh := sp) (ow := sp) (by omega) (by omega) (by omega) (by omega) (by omega) (by omega) (by omega) (by omega),
    ok_bind, if_pos (by omega), ok_bind, updBlock_ok hsp hj hk (by rfl) (by rfl), ok_bind]
  have epad : addzeropadding pd D = .ok (Mat.of (h + 2 * pd) (w + 2 * pd) (fun r c =>
      if pd ≤ r ∧ r < pd + h ∧ pd ≤ c ∧ c < pd + w then D.f (r - pd) (c - pd) else 0)) := by
    have e := addzeropadding_ok pd h w D.f
    rwa [← hD.1, ← hD.2, Mat.of_self, hD.1, hD.2] at e
  rw [epad, ok_bind]
  have l1 : (j + 1) * sp ≤ L.W.nr := by rw [hr, Nat.mul_comm sp]; exact Nat.mul_le_mul_right _ hj
  have l2 : (k + 1) * sp ≤ L.W.nc := by rw [hcc, Nat.mul_comm sp]; exact Nat.mul_le_mul_right _ hk
  rw [flip_ok hsp l1 l2, ok_bind]
  rw [convolve_one junk (oh := h) (ow := w) (by exact hsp) (by exact hsp) (by simp only [Mat.of_nr]; omega) (by simp only [Mat.of_nc]; omega)
    (by simp only [Mat.of_nr]; omega) (by simp only [Mat.of_nc]; omega) (by simp only [Mat.of_nr]; omega) (by simp only [Mat.of_nc]; omega), ok_bind]
  have hs0 : 0 < w * h := Nat.mul_pos hw hh
  rw [addRowBlock_ok hs0 hi hj (by rfl) (by simp only [Mat.of_nc]; rw [Nat.mul_comm]), ok_bind]
  congr 2
  · apply Mat.of_congr
    intro r q _ hq
    by_cases hc : r = i ∧ q / (w * h) = j
    · rw [if_pos hc, if_pos hc, Mat.of_f' (by omega) (by rw [Nat.mul_comm h w]; exact Nat.mod_lt _ hs0)]
      congr 1
      unfold winSum
      simp only [Mat.of_nr, Mat.of_nc]
      have hq1 : q % (w * h) / w < h := Nat.div_lt_of_lt_mul (Nat.mod_lt _ hs0)
      have hq2 : q % (w * h) % w < w := Nat.mod_lt _ hw
      refine sum_congr rfl fun u hu => sum_congr rfl fun v hv => ?_
      rw [mem_range] at hu hv
      rw [Mat.of_f' (by omega) (by omega), Mat.of_f' hu hv]
    · rw [if_neg hc, if_neg hc]
  · apply Mat.of_congr
    intro r s _ _
    by_cases hc : r / sp = j ∧ s / sp = k
    · rw [if_pos hc, if_pos hc]
      congr 1
      unfold Mat.reshape
      simp only [Int.toNat_natCast, Mat.of_nr, Mat.of_nc]
      have hr1 : r % sp < sp := Nat.mod_lt _ hsp
      have hs1 : s % sp < sp := Nat.mod_lt _ hsp
      have hlt : r % sp + s % sp * sp < sp * sp := by rw [Nat.add_comm]; exact row_lt hs1 hr1
      rw [Mat.of_f' hr1 hs1, if_pos (by rw [Nat.one_mul]; exact hlt), Nat.mod_one, Nat.div_one, Mat.of_f' (by omega) hlt,
        Nat.add_comm, (row_div_mod hr1).1, (row_div_mod hr1).2]
    · rw [if_neg hc, if_neg hc]

/-- Contribution of one entry of the padded delta images to the propagated delta: entry `q` (channel `q / (w*h)`, row by row) of sample `i` from output
channel `k`. -/
def backTerm (g : ℝ → ℝ) (del W : Mat ℝ) (h w sp pd i k q : Nat) : ℝ :=
  ∑ u ∈ range sp, ∑ v ∈ range sp,
    (if pd ≤ q % (w * h) / w + u ∧ q % (w * h) / w + u < pd + h ∧ pd ≤ q % (w * h) % w + v ∧ q % (w * h) % w + v < pd + w then
      (dImg g del h w i k).f (q % (w * h) / w + u - pd) (q % (w * h) % w + v - pd) else 0) * W.f (q / (w * h) * sp + (sp - 1 - u)) (k * sp + (sp - 1 - v))

/-- `backprop` in closed form for stride 1 and `spatial = 2 * padding + 1`. -/
theorem Conv.back_ok (junk : Nat → Nat → ℝ) {L : Layer} {c : Conv} {h w pn nf sp pd : Nat} (G : c.Geo h w pn nf sp 1 pd) (hsame : sp = 2 * pd + 1)
    {del : Mat ℝ} {I : Nat → Mat ℝ} (hI : ∀ i, i < del.nr → (I i).nr = h + 2 * pd ∧ (I i).nc = w + 2 * pd)
    (himg : c.images = (List.range del.nr).map I) (hr : L.W.nr = sp * pn) (hcc : L.W.nc = sp * nf) (hgr : L.grad.nr = sp * pn) (hgc : L.grad.nc = sp * nf)
    (hdc : nf * (h * w) ≤ del.nc) :
    backprop junk L c del =
      .ok (Mat.of del.nr (w * h * pn) (fun i q => ∑ k ∈ range nf, backTerm L.actfunc.actd del L.W h w sp pd i k q),
        { L with delta := Mat.of del.nr (w * h * pn) (fun i q => ∑ k ∈ range nf, backTerm L.actfunc.actd del L.W h w sp pd i k q),
                 grad := Mat.of (sp * pn) (sp * nf) (fun r s => ∑ i ∈ range del.nr, winSum (I i) (dImg L.actfunc.actd del h w i (s / sp)) (s % sp) (r % sp)) }, c) := by
  have hsp := G.hsp
  have hh := G.hh
  have hw := G.hw
  have hs0 : 0 < w * h := Nat.mul_pos hw hh
  have oh : Spec.outLen h sp 1 pd = h := by unfold Spec.outLen; rw [Nat.div_one]; have := G.fh; omega
  have ow : Spec.outLen w sp 1 pd = w := by unfold Spec.outLen; rw [Nat.div_one]; have := G.fw; omega
  set m := del.nr with hm
  unfold backprop Mat.mk'
  have epn : (c.inputsize * c.pnfilter).toNat = w * h * pn := by rw [G.es, G.epn, ← Nat.cast_mul, Int.toNat_natCast]
  rw [if_pos ⟨by omega, by rw [G.es, G.epn]; positivity⟩, ok_bind, epn, Int.toNat_natCast, hgr, hgc]
  simp only
  have hdnr : (funcop del L.actfunc.actd).nr = m := rfl
  rw [hdnr]
  let T : Nat → Nat → Nat → ℝ := fun i k q => backTerm L.actfunc.actd del L.W h w sp pd i k q
  let g : Nat → Nat → Nat → ℝ := fun i r s => winSum (I i) (dImg L.actfunc.actd del h w i (s / sp)) (s % sp) (r % sp)
  let A : Nat → Nat → Nat → Mat ℝ := fun i k j => Mat.of m (w * h * pn) (fun r q =>
    if r < i then ∑ k' ∈ range nf, T r k' q
    else if r = i then (∑ k' ∈ range k, T r k' q) + (if q / (w * h) < j then T r k q else 0) else 0)
  let B : Nat → Nat → Nat → Mat ℝ := fun i k j => Mat.of (sp * pn) (sp * nf) (fun r s =>
    (∑ i' ∈ range i, g i' r s) + (if s / sp < k ∨ (s / sp = k ∧ r / sp < j) then g i r s else 0))
  have main : loop m (fun i s => (do
      let deltay ← (funcop del L.actfunc.actd).row i
      loop c.nfilter.toNat (fun k s => do
        let dimg ← toimage deltay k c.outputwidth c.outputheight
        loop c.pnfilter.toNat (fun j (s : Mat ℝ × Mat ℝ) => do
          let image ← getSlice c.images i
          let partialgrad ← convolve junk c.stride image dimg
          let partialgrad ← (if 0 ≤ c.spatial then .ok (partialgrad.reshape c.spatial.toNat c.spatial.toNat) else .error .throw : Res _)
          let grad ← s.2.updSubmat (· + ·) (j * c.spatial) (k * c.spatial) (((j : Int) + 1) * c.spatial - 1) (((k : Int) + 1) * c.spatial - 1) partialgrad
          let paddimg ← addzeropadding c.padding dimg
          let kernel ← flip c.spatial L.W j k
          let partialdelta ← convolve junk c.stride paddimg kernel
          let delta ← addRowBlock s.1 i j c.inputsize partialdelta
          .ok (delta, grad)) s) s : Res (Mat ℝ × Mat ℝ)))
      (Mat.of m (w * h * pn) (fun _ _ => (0 : ℝ)), Mat.of (sp * pn) (sp * nf) (fun _ _ => (0 : ℝ))) = .ok (A m 0 0, B m 0 0) := by
    rw [G.enf, G.epn, G.eow, G.eoh, oh, ow]
    simp only [Int.toNat_natCast]
    refine loop_eq (fun i => (A i 0 0, B i 0 0)) ?_ ?_
    · congr 1
      · apply Mat.of_congr
        intro r q _ _
        simp
      · apply Mat.of_congr
        intro r q _ _
        simp
    · intro i hi
      have hrow : (funcop del L.actfunc.actd).row i = .ok (Mat.of 1 del.nc (fun _ n => (funcop del L.actfunc.actd).f i n)) := by
        unfold Mat.row
        rw [if_pos ⟨by omega, by rw [hdnr]; omega⟩, Int.toNat_natCast]
        rfl
      rw [hrow, ok_bind]
      have hA1 : A (i + 1) 0 0 = A i nf 0 := by
        apply Mat.of_congr
        intro r q _ _
        by_cases r1 : r < i
        · rw [if_pos r1, if_pos (by omega)]
        · by_cases r2 : r = i
          · subst r2; simp
          · rw [if_neg (by omega), if_neg r1, if_neg r2]; simp
      have hB1 : B (i + 1) 0 0 = B i nf 0 := by
        apply Mat.of_congr
        intro r s _ hs
        rw [if_neg (by simp), if_pos (Or.inl (Nat.div_lt_of_lt_mul hs)), Finset.sum_range_succ, add_zero]
      rw [hA1, hB1]
      refine loop_eq (fun k => (A i k 0, B i k 0)) rfl ?_
      intro k hk
      have hD : toimage (Mat.of 1 del.nc (fun _ n => (funcop del L.actfunc.actd).f i n)) k w h = .ok (dImg L.actfunc.actd del h w i k) := by
        have hle : (k + 1) * (w * h) ≤ del.nc := le_trans (Nat.mul_le_mul_right _ hk) (by rw [Nat.mul_comm w h]; exact hdc)
        rw [toimage_ok (by show 0 < 1; omega) hh hw (by exact hle)]
        congr 1
        apply Mat.of_congr
        intro a b ha hb
        unfold rawPix
        have hlt : a + b * h < w * h := by rw [Nat.add_comm]; exact row_lt hb ha
        have e : (k + 1) * (w * h) = k * (w * h) + w * h := by ring
        simp only [Mat.of_nr, Nat.mod_one, Nat.div_one]
        rw [Mat.of_f' (by omega) (by omega)]
        unfold funcop
        rw [Mat.map_f' hi (by omega)]
        congr 2
        rw [Nat.mul_comm w h]
        omega
      rw [hD, ok_bind]
      have hA2 : A i (k + 1) 0 = A i k pn := by
        apply Mat.of_congr
        intro r q _ hq
        by_cases r1 : r < i
        · rw [if_pos r1, if_pos r1]
        · by_cases r2 : r = i
          · have hqq : q / (w * h) < pn := Nat.div_lt_of_lt_mul hq
            subst r2; simp [Finset.sum_range_succ, hqq]
          · rw [if_neg r1, if_neg r2, if_neg r1, if_neg r2]
      have hB2 : B i (k + 1) 0 = B i k pn := by
        apply Mat.of_congr
        intro r s hr' _
        have hrr : r / sp < pn := Nat.div_lt_of_lt_mul hr'
        congr 1
        by_cases hc : s / sp < k + 1
        · rw [if_pos (Or.inl hc), if_pos (by omega)]
        · rw [if_neg (by rintro (h1 | ⟨_, h1⟩); exacts [hc h1, Nat.not_lt_zero _ h1]), if_neg (by omega)]
      rw [hA2, hB2]
      refine loop_eq (fun j => (A i k j, B i k j)) rfl ?_
      intro j hj
      refine (back_body junk G hsame hi hj hk (hI i hi) himg hr hcc (D := dImg L.actfunc.actd del h w i k) ⟨rfl, rfl⟩ _ _).trans ?_
      congr 2
      · apply Mat.of_congr
        intro r q _ _
        by_cases r1 : r < i
        · rw [if_neg (by omega), if_pos r1, if_pos r1]
        · by_cases r2 : r = i
          · subst r2
            rw [if_neg r1, if_neg r1, if_pos rfl, if_pos rfl]
            by_cases q1 : q / (w * h) = j
            · rw [if_pos ⟨rfl, q1⟩, if_neg (by omega), if_pos (by omega), add_zero]
              simp only [T, backTerm, q1]
            · rw [if_neg (fun hh => q1 hh.2)]
              by_cases q2 : q / (w * h) < j
              · rw [if_pos q2, if_pos (by omega)]
              · rw [if_neg q2, if_neg (by omega)]
          · rw [if_neg (fun hh => r2 hh.1), if_neg r1, if_neg r1, if_neg r2, if_neg r2]
      · apply Mat.of_congr
        intro r s _ _
        by_cases q1 : r / sp = j ∧ s / sp = k
        · rw [if_pos q1, if_neg (by omega), if_pos (by omega), add_zero]
          simp only [g, q1.2]
        · rw [if_neg q1]
          by_cases q2 : s / sp < k ∨ (s / sp = k ∧ r / sp < j)
          · rw [if_pos q2, if_pos (by omega)]
          · rw [if_neg q2, if_neg (by omega)]
  have eA : A m 0 0 = Mat.of m (w * h * pn) (fun i q => ∑ k ∈ range nf, T i k q) := by
    apply Mat.of_congr
    intro r q hr' _
    rw [if_pos hr']
  have eB : B m 0 0 = Mat.of (sp * pn) (sp * nf) (fun r s => ∑ i ∈ range m, g i r s) := by
    apply Mat.of_congr
    intro r s _ _
    rw [if_neg (by simp), add_zero]
  rw [eA, eB] at main
  refine Eq.trans (congrArg (fun t => t >>= _) main) ?_
  rfl

/-- What the backward pass computes for stride 1 when it does not throw (`C49_throws`), for every batch and stored images: the gradient of the kernel from
channel `j` to filter `k` pairs the *stored* image of the sample (that of the last channel, see `C49_after_forward`), with rows and columns exchanged, with the
activation derivative *of the delta*. -/
theorem C49_exact (junk : Nat → Nat → ℝ) {L : Layer} {c : Conv} {h w pn nf sp pd : Nat} (G : c.Geo h w pn nf sp 1 pd) (hsame : sp = 2 * pd + 1)
    {del : Mat ℝ} {I : Nat → Mat ℝ} (hI : ∀ i, i < del.nr → (I i).nr = h + 2 * pd ∧ (I i).nc = w + 2 * pd)
    (himg : c.images = (List.range del.nr).map I) (hr : L.W.nr = sp * pn) (hcc : L.W.nc = sp * nf) (hgr : L.grad.nr = sp * pn) (hgc : L.grad.nc = sp * nf)
    (hdc : nf * (h * w) ≤ del.nc) :
    ∃ δ L', Conv.backprop junk L c del = .ok (δ, L', c) ∧ δ.nr = del.nr ∧ δ.nc = pn * (h * w) ∧ L'.grad.nr = sp * pn ∧ L'.grad.nc = sp * nf ∧ L'.W = L.W ∧
      (∀ j k u v, j < pn → k < nf → u < sp → v < sp → L'.grad.f (j * sp + u) (k * sp + v) =
        ∑ i ∈ range del.nr, ∑ a ∈ range h, ∑ b ∈ range w, (I i).f (v + a) (u + b) * L.actfunc.actd (del.f i (k * (h * w) + b * h + a))) := by
  refine ⟨_, _, Conv.back_ok junk G hsame hI himg hr hcc hgr hgc hdc, rfl, by show w * h * pn = _; ring, rfl, rfl, rfl, ?_⟩
  intro j k u v hj hk hu hv
  have hr' : j * sp + u < sp * pn := by rw [Nat.mul_comm sp]; exact row_lt hj hu
  have hs' : k * sp + v < sp * nf := by rw [Nat.mul_comm sp]; exact row_lt hk hv
  rw [Mat.of_f' hr' hs']
  refine sum_congr rfl fun i _ => ?_
  rw [(row_div_mod hv).1, (row_div_mod hv).2, (row_div_mod hu).2]
  unfold Conv.winSum
  show ∑ a ∈ range h, ∑ b ∈ range w, _ = _
  refine sum_congr rfl fun a ha => sum_congr rfl fun b hb => ?_
  congr 1
  exact Mat.of_f' (mem_range.1 ha) (mem_range.1 hb)

/-- The same right after a forward pass for the batch `x`: the stored images are those of the last channel of the interleaved batch, for all channels and all
samples. -/
theorem C49_after_forward (junk : Nat → Nat → ℝ) {L : Layer} {c : Conv} {h w pn nf sp pd : Nat} (G : c.Geo h w pn nf sp 1 pd) (hsame : sp = 2 * pd + 1)
    {x del : Mat ℝ} (hm : 0 < x.nr) (hdr : del.nr = x.nr) (hc : pn * (w * h) ≤ x.nc) (hr : L.W.nr = sp * pn) (hcc : L.W.nc = sp * nf)
    (hgr : L.grad.nr = sp * pn) (hgc : L.grad.nc = sp * nf) (hdc : nf * (h * w) ≤ del.nc) :
    ∃ y L' c' δ L'', Conv.forwardprop junk L c x = .ok (y, L', c') ∧ Conv.backprop junk L' c' del = .ok (δ, L'', c') ∧
      ∀ j k u v, j < pn → k < nf → u < sp → v < sp → L''.grad.f (j * sp + u) (k * sp + v) =
        ∑ i ∈ range del.nr, ∑ a ∈ range h, ∑ b ∈ range w,
          Spec.pixel h w pd (mixed x (h * w)) (pn - 1) (v + a) (u + b) * L.actfunc.actd (del.f i (k * (h * w) + b * h + a)) := by
  obtain ⟨A, hA, hf⟩ := Conv.forward_ok junk G hm hc hr hcc rfl rfl rfl
  have G' : Conv.Geo { c with images := (List.range x.nr).map (fun _ => Conv.padImg x h w pd (pn - 1)) } h w pn nf sp 1 pd :=
    ⟨G.eh, G.ew, G.es, G.eoh, G.eow, G.eos, G.epn, G.enf, G.esp, G.est, G.epd, G.hh, G.hw, G.hpn, G.hnf, G.hsp, G.hst, G.fh, G.fw, G.bh, G.bw⟩
  obtain ⟨δ, L'', h1, _, _, _, _, _, h2⟩ := C49_exact junk (L := { L with a := A }) G' hsame (del := del) (I := fun _ => Conv.padImg x h w pd (pn - 1))
    (fun _ _ => ⟨rfl, rfl⟩) (by rw [hdr]) hr hcc hgr hgc hdc
  refine ⟨_, _, _, δ, L'', hf, h1, fun j k u v hj hk hu hv => ?_⟩
  rw [h2 j k u v hj hk hu hv]
  refine sum_congr rfl fun i _ => sum_congr rfl fun a _ => sum_congr rfl fun b _ => ?_
  rw [padImg_f G.hh]

/-- The backward pass throws for every layer with stride 1 whose padding is not exactly the one that keeps the image size (`spatial = 2 * padding + 1`), as long
as the window fits into the padded delta. -/
theorem C49_throws (junk : Nat → Nat → ℝ) {L : Layer} {c : Conv} {h w pn nf sp pd : Nat} (G : c.Geo h w pn nf sp 1 pd) (hne : sp ≠ 2 * pd + 1)
    (hfit : 2 * sp ≤ h + 4 * pd + 1 ∧ 2 * sp ≤ w + 4 * pd + 1) (hb : h + 4 * pd < 2 ^ 31 ∧ w + 4 * pd < 2 ^ 31)
    {del : Mat ℝ} (hm : 0 < del.nr) {I : Nat → Mat ℝ} (hI : ∀ i, i < del.nr → (I i).nr = h + 2 * pd ∧ (I i).nc = w + 2 * pd)
    (himg : c.images = (List.range del.nr).map I) (hr : L.W.nr = sp * pn) (hcc : L.W.nc = sp * nf) (hgr : L.grad.nr = sp * pn) (hgc : L.grad.nc = sp * nf)
    (hdc : nf * (Spec.outLen h sp 1 pd * Spec.outLen w sp 1 pd) ≤ del.nc) :
    Conv.backprop junk L c del = .error .throw := by
  have hsp := G.hsp
  have hh := G.hh
  have hw := G.hw
  have bh := G.bh
  have bw := G.bw
  have fh := G.fh
  have fw := G.fw
  have hs0 : 0 < w * h := Nat.mul_pos hw hh
  obtain ⟨oh, eoh⟩ : ∃ oh, oh = Spec.outLen h sp 1 pd := ⟨_, rfl⟩
  obtain ⟨ow, eow⟩ : ∃ ow, ow = Spec.outLen w sp 1 pd := ⟨_, rfl⟩
  have hoh : oh + sp = h + 2 * pd + 1 := by rw [eoh]; unfold Spec.outLen; rw [Nat.div_one]; omega
  have how : ow + sp = w + 2 * pd + 1 := by rw [eow]; unfold Spec.outLen; rw [Nat.div_one]; omega
  rw [← eoh, ← eow] at hdc
  unfold Conv.backprop Mat.mk'
  have epn : (c.inputsize * c.pnfilter).toNat = w * h * pn := by rw [G.es, G.epn, ← Nat.cast_mul, Int.toNat_natCast]
  rw [if_pos ⟨by omega, by rw [G.es, G.epn]; positivity⟩, ok_bind, epn, Int.toNat_natCast, hgr, hgc, G.enf, G.epn, G.eow, G.eoh, ← eoh, ← eow]
  simp only [Int.toNat_natCast]
  have hdnr : (funcop del L.actfunc.actd).nr = del.nr := rfl
  rw [hdnr]
  refine Eq.trans (congrArg (fun t => t >>= _) (?_ : _ = .error .throw)) rfl
  refine loop_error (k := 0) (fun _ => (Mat.of del.nr (w * h * pn) (fun _ _ => (0 : ℝ)), Mat.of (sp * pn) (sp * nf) (fun _ _ => (0 : ℝ)))) rfl hm (by omega) ?_
  have hrow : (funcop del L.actfunc.actd).row (0 : Nat) = .ok (Mat.of 1 del.nc (fun _ n => (funcop del L.actfunc.actd).f 0 n)) := by
    unfold Mat.row
    rw [if_pos ⟨by omega, by rw [hdnr]; omega⟩]
    rfl
  rw [hrow, ok_bind]
  refine loop_error (k := 0) (fun _ => (Mat.of del.nr (w * h * pn) (fun _ _ => (0 : ℝ)), Mat.of (sp * pn) (sp * nf) (fun _ _ => (0 : ℝ)))) rfl G.hnf (by omega) ?_
  have hle : (0 + 1) * (ow * oh) ≤ del.nc := le_trans (Nat.mul_le_mul_right _ G.hnf) (by rw [Nat.mul_comm ow oh]; exact hdc)
  rw [Conv.toimage_ok (by show 0 < 1; omega) (by omega) (by omega) (by exact hle), ok_bind]
  refine loop_error (k := 0) (fun _ => (Mat.of del.nr (w * h * pn) (fun _ _ => (0 : ℝ)), Mat.of (sp * pn) (sp * nf) (fun _ _ => (0 : ℝ)))) rfl G.hpn (by omega) ?_
  have hI0 := hI 0 hm
  rw [himg, Conv.getSlice_map hm, ok_bind, G.est, G.esp, G.epd, G.es, Nat.cast_one]
  rw [Conv.convolve_one junk (x := I 0) (oh := sp) (ow := sp) (by simp only [Mat.of_nr]; omega) (by simp only [Mat.of_nc]; omega) (by simp only [Mat.of_nr]; omega)
    (by simp only [Mat.of_nc]; omega) (by omega) (by omega) (by simp only [Mat.of_nr]; omega) (by simp only [Mat.of_nc]; omega),
    ok_bind, if_pos (by omega), ok_bind]
  have hub := Conv.updBlock_ok (pn := pn) (nf := nf) (sp := sp) (j := 0) (k := 0) (g := fun _ _ => 0)
    (v := (Mat.of 1 (sp * sp) (fun _ q => Conv.winSum (I 0) (Mat.of oh ow (Conv.rawPix (Mat.of 1 del.nc (fun _ n => (funcop del L.actfunc.actd).f 0 n)) oh ow 0)) (q / sp) (q % sp))).reshape
      (sp : Int).toNat (sp : Int).toNat) hsp G.hpn G.hnf rfl rfl
  rw [hub, ok_bind, Conv.addzeropadding_ok, ok_bind]
  have l1 : (0 + 1) * sp ≤ L.W.nr := by rw [hr, Nat.mul_comm sp]; exact Nat.mul_le_mul_right _ G.hpn
  have l2 : (0 + 1) * sp ≤ L.W.nc := by rw [hcc, Nat.mul_comm sp]; exact Nat.mul_le_mul_right _ G.hnf
  rw [Conv.flip_ok hsp l1 l2, ok_bind]
  rw [Conv.convolve_one junk (oh := oh + 2 * pd + 1 - sp) (ow := ow + 2 * pd + 1 - sp) (by exact hsp) (by exact hsp) (by simp only [Mat.of_nr]; omega)
    (by simp only [Mat.of_nc]; omega) (by simp only [Mat.of_nr]; omega) (by simp only [Mat.of_nc]; omega) (by simp only [Mat.of_nr]; omega)
    (by simp only [Mat.of_nc]; omega), ok_bind]
  unfold Conv.addRowBlock Mat.updSubmat
  have hsz : (oh + 2 * pd + 1 - sp) * (ow + 2 * pd + 1 - sp) ≠ w * h := by
    rcases Nat.lt_or_gt_of_ne hne with hlt | hgt
    · have h1 : h < oh + 2 * pd + 1 - sp := by omega
      have h2 : w < ow + 2 * pd + 1 - sp := by omega
      have := Nat.mul_lt_mul_of_lt_of_lt h1 h2
      rw [Nat.mul_comm h w] at this
      omega
    · have h1 : oh + 2 * pd + 1 - sp < h := by omega
      have h2 : ow + 2 * pd + 1 - sp < w := by omega
      have := Nat.mul_lt_mul_of_lt_of_lt h1 h2
      rw [Nat.mul_comm h w] at this
      omega
  split
  · rw [if_neg]
    · rfl
    · rintro ⟨_, hh2⟩
      apply hsz
      simp only [Mat.of_nc, Nat.cast_zero, zero_mul, zero_add, one_mul, sub_zero] at hh2
      rw [hh2]
      omega
  · rfl

/-- The property is false: a layer with one weight, one pixel 3 and the identity activation computes `3 * t` for the weight `t`. For the incoming delta 2 the
derivative of `delta * output` by the weight is 6; the layer reports 3. -/
theorem C49_refuted (junk : Nat → Nat → ℝ) : ∃ (L : Layer) (c : Conv) (x del : Mat ℝ) (F : ℝ → ℝ) (g : ℝ), c.Geo 1 1 1 1 1 1 0 ∧
    (∀ t, ∃ s, Conv.forwardprop junk { L with W := Mat.of 1 1 (fun _ _ => t) } c x = .ok s ∧ s.1.nr = 1 ∧ s.1.nc = 1 ∧ s.1.f 0 0 = F t) ∧
    (∀ t, HasDerivAt (fun t => del.f 0 0 * F t) g t) ∧
    ∀ t, ∃ y L' c' δ L'', Conv.forwardprop junk { L with W := Mat.of 1 1 (fun _ _ => t) } c x = .ok (y, L', c') ∧
      Conv.backprop junk L' c' del = .ok (δ, L'', c') ∧ L''.grad.f 0 0 ≠ g := by
  obtain ⟨L, c, h1, h2, h3, h4, h5, h6, h7, _, _⟩ := Conv.new_geo (fun _ _ => 0) junk (h := 1) (w := 1) (pn := 1) (nf := 1) (sp := 1) (st := 1) (pd := 0) 0
    Act.identity (by norm_num) (by norm_num) (by norm_num) (by norm_num) (by norm_num) (by norm_num) (by norm_num) (by norm_num) (by norm_num) (by norm_num)
  have hact : L.actfunc.act = id := by rw [h7]; rfl
  have hactd : ∀ x, L.actfunc.actd x = 1 := by intro x; rw [h7]; rfl
  refine ⟨L, c, Mat.of 1 1 (fun _ _ => 3), Mat.of 1 1 (fun _ _ => 2), fun t => 3 * t, 6, h2, ?_, ?_, ?_⟩
  · intro t
    obtain ⟨y, L', c', g1, g2, g3, g4⟩ := C47_forward_partial junk (L := { L with W := Mat.of 1 1 (fun _ _ => t) }) h2 (x := Mat.of 1 1 (fun _ _ => 3)) rfl (by simp) rfl rfl
    refine ⟨_, g1, g2, g3, ?_⟩
    have e := g4 0 0 0 (by omega) (Nat.succ_pos _) (Nat.succ_pos _)
    simp only [Nat.zero_mul, Nat.add_zero] at e
    rw [e, hact]
    simp [Spec.conv, Spec.pixel, Mat.of_f]
  · intro t
    have h := ((hasDerivAt_id t).const_mul (3 : ℝ)).const_mul (2 : ℝ)
    simp only [Mat.of_f]
    norm_num at h ⊢
    exact h
  · intro t
    obtain ⟨y, L', c', δ, L'', g1, g2, g3⟩ := C49_after_forward junk (L := { L with W := Mat.of 1 1 (fun _ _ => t) }) h2 rfl (x := Mat.of 1 1 (fun _ _ => 3))
      (del := Mat.of 1 1 (fun _ _ => 2)) (by show 0 < 1; omega) rfl (by simp) rfl rfl (by exact h5) (by exact h6) (by simp)
    refine ⟨y, L', c', δ, L'', g1, g2, ?_⟩
    have e := g3 0 0 0 0 (by omega) (by omega) (by omega) (by omega)
    simp only [Nat.zero_mul, Nat.add_zero] at e
    rw [e]
    simp only [hactd, Mat.of_nr, sum_range_one]
    simp [Spec.pixel, Mat.of_f, mixed]

/-- The hypotheses of `C49_throws` are met: 4 x 4 images, 2 x 2 windows, stride 1, no padding. -/
example (dist : Draws) (junk : Nat → Nat → ℝ) : ∃ (L : Layer) (c : Conv), c.Geo 4 4 1 1 2 1 0 ∧ (2 : ℕ) ≠ 2 * 0 + 1 ∧ 2 * 2 ≤ 4 + 4 * 0 + 1 ∧ L.W.nr = 2 ∧ L.grad.nr = 2 := by
  obtain ⟨L, c, h1, h2, h3, h4, h5, h6, h7, _, _⟩ := Conv.new_geo dist junk (h := 4) (w := 4) (pn := 1) (nf := 1) (sp := 2) (st := 1) (pd := 0) 0
    Act.identity (by norm_num) (by norm_num) (by norm_num) (by norm_num) (by norm_num) (by norm_num) (by norm_num) (by norm_num) (by norm_num) (by norm_num)
  exact ⟨L, c, h2, by norm_num, by norm_num, h3, h5⟩

end
end Nnet.NN
