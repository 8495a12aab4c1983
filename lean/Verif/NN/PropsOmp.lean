import Verif.NN.Omp
import Verif.NN.PropsConvBack
import Verif.NN.PoolLemmas
import Verif.NN.PropsGrad
/-!
# C108: exceptions in the OpenMP loops
-/
namespace Nnet.NN
noncomputable section
open Finset Conv

/-! ## Specification -/

/-- How a call ends in a build with OpenMP (`omp`), compared with a build without (`plain`): the same, or the exception has become the end of the program. -/
def Spec.SameOrTerminates {α : Type} (plain omp : Res α) : Prop := omp = plain ∨ (plain = .error .throw ∧ omp = .error .abort)

/-! ## Loops -/

section
variable {α β σ : Type}

theorem same_refl (r : Res α) : Spec.SameOrTerminates r r := Or.inl rfl

theorem same_bind {r r' : Res α} {f f' : α → Res β} (h : Spec.SameOrTerminates r r') (hf : ∀ a, Spec.SameOrTerminates (f a) (f' a)) :
    Spec.SameOrTerminates (r >>= f) (r' >>= f') := by
  rcases h with rfl | ⟨h1, h2⟩
  · cases r' with
    | error e => exact Or.inl rfl
    | ok a => exact hf a
  · exact Or.inr ⟨by rw [h1]; rfl, by rw [h2]; rfl⟩

theorem same_region {r r' : Res α} (h : Spec.SameOrTerminates r r') : Spec.SameOrTerminates r (region r') := by
  rcases h with rfl | ⟨h1, h2⟩
  · cases r' with
    | ok a => exact Or.inl rfl
    | error e => cases e <;> first | exact Or.inl rfl | exact Or.inr ⟨rfl, rfl⟩
  · exact Or.inr ⟨h1, by rw [h2]; rfl⟩

theorem same_loop {n : Nat} {b b' : Nat → σ → Res σ} (h : ∀ i s, Spec.SameOrTerminates (b i s) (b' i s)) (s : σ) : Spec.SameOrTerminates (loop n b s) (loop n b' s) := by
  induction n with
  | zero => exact same_refl _
  | succ n ih => exact same_bind ih fun s => h n s

/-- Every iteration keeps `P` or stops the loop with an outcome in `E`. -/
theorem loop_cases {n : Nat} {body : Nat → σ → Res σ} {s : σ} (P : σ → Prop) (E : Stop → Prop) (h0 : P s)
    (hs : ∀ i s, i < n → P s → (∃ s', body i s = .ok s' ∧ P s') ∨ ∃ e, body i s = .error e ∧ E e) :
    (∃ s', loop n body s = .ok s' ∧ P s') ∨ ∃ e, loop n body s = .error e ∧ E e := by
  induction n with
  | zero => exact Or.inl ⟨s, rfl, h0⟩
  | succ n ih =>
    rcases ih fun i s hi => hs i s (by omega) with ⟨s1, h1, hp⟩ | ⟨e, h1, he⟩
    · rcases hs n s1 (by omega) hp with ⟨s2, h2, hp2⟩ | ⟨e, h2, he⟩
      · exact Or.inl ⟨s2, by simp [loop, h1, h2], hp2⟩
      · exact Or.inr ⟨e, by simp [loop, h1, h2], he⟩
    · exact Or.inr ⟨e, by simp [loop, h1], he⟩

/-- All iterations of a loop that ends normally end normally. -/
theorem omp_loop_ok_each {n : Nat} {body : Nat → σ → Res σ} {s s' : σ} (h : loop n body s = .ok s') : ∀ k, k < n → ∃ t t', body k t = .ok t' := by
  induction n generalizing s' with
  | zero => intro k hk; omega
  | succ n ih =>
    obtain ⟨t, h1, h2⟩ := bind_eq_ok h
    intro k hk
    rcases Nat.lt_or_ge k n with hl | hl
    · exact ih h1 k hl
    · have : k = n := by omega
      subst this
      exact ⟨t, s', h2⟩

theorem region_eq_ok {r : Res α} {a : α} (h : region r = .ok a) : r = .ok a := by
  cases r with
  | ok b => exact h
  | error e => cases e <;> cases h

end

theorem Conv.channelLoopsOmp_same {σ : Type} (junk : Nat → Nat → ℝ) (c : Conv) (pa : Mat ℝ) (extra : σ) (step : Nat → Nat → Nat → Mat ℝ → σ → Res (Mat ℝ × σ)) :
    Spec.SameOrTerminates (Conv.channelLoops junk c pa extra step) (Conv.channelLoopsOmp junk c pa extra step) := by
  unfold Conv.channelLoops Conv.channelLoopsOmp
  refine same_bind (same_refl _) fun a => same_bind (same_refl _) fun im => same_loop (fun i s => ?_) _
  refine same_bind (same_refl _) fun _ => same_loop (fun j s => ?_) _
  refine same_bind (same_refl _) fun _ => same_bind (same_refl _) fun _ => same_bind (same_refl _) fun _ => same_region (same_refl _)

/-- C108, first part: a build with OpenMP differs from one without only in that an exception may terminate the program; calls that return, return the same. -/
theorem C108_same (junk : Nat → Nat → ℝ) (L : Layer) (c : Conv) (m : Mat ℝ) :
    Spec.SameOrTerminates (Conv.forwardprop junk L c m) (Conv.forwardpropOmp junk L c m) ∧ Spec.SameOrTerminates (Conv.backprop junk L c m) (Conv.backpropOmp junk L c m) ∧
    Spec.SameOrTerminates (MaxPool.forwardprop junk L c m) (MaxPool.forwardpropOmp junk L c m) ∧ Spec.SameOrTerminates (MeanPool.forwardprop junk L c m) (MeanPool.forwardpropOmp junk L c m) := by
  refine ⟨same_bind (Conv.channelLoopsOmp_same _ _ _ _ _) fun _ => same_refl _, ?_, same_bind (same_refl _) fun _ => same_bind (Conv.channelLoopsOmp_same _ _ _ _ _) fun _ => same_refl _,
    same_bind (Conv.channelLoopsOmp_same _ _ _ _ _) fun _ => same_refl _⟩
  unfold Conv.backprop Conv.backpropOmp
  refine same_bind (same_refl _) fun _ => same_bind (same_loop (fun i s => ?_) _) fun _ => same_refl _
  exact same_bind (same_refl _) fun _ => same_loop (fun k s => same_bind (same_refl _) fun _ => same_region (same_refl _)) _

/-! ## Forward passes -/

theorem toimage_narrow {pa : Mat ℝ} {h w j : Nat} (hc : pa.nc < (j + 1) * (w * h)) : toimage pa j w h = .error .throw := by
  unfold toimage
  simp only
  have e3 : ((j : Int) + 1) * ((w : Int) * h) = (((j + 1) * (w * h) : Nat) : Int) := by push_cast; ring
  unfold Mat.cols
  rw [if_neg (by rw [e3]; omega)]
  rfl

theorem addRowBlock_keeps {os nf k i : Nat} {a v : Mat ℝ} (hos : 0 < os) (hc : a.nc = os * nf) (hi : i < a.nr) (hk : k < nf) (h1 : v.nr = 1) (h2 : v.nc = os) :
    ∃ a', addRowBlock a i k os v = .ok a' ∧ a'.nr = a.nr ∧ a'.nc = os * nf := by
  have := Conv.addRowBlock_ok (g := a.f) (m := a.nr) hos hi hk h1 h2
  rw [← hc, Mat.of_self] at this
  exact ⟨_, this, rfl, hc⟩

/-- Sizes of the images in memory. -/
def ImagesFit (h w pd n : Nat) (images : List (Mat ℝ)) : Prop := images.length = n ∧ ∀ m ∈ images, m.nr = h + 2 * pd ∧ m.nc = w + 2 * pd

/-- The loops of a forward pass with or without OpenMP. -/
def loopsWith {σ : Type} (R : Res (Mat ℝ × List (Mat ℝ) × σ) → Res (Mat ℝ × List (Mat ℝ) × σ)) (junk : Nat → Nat → ℝ) (c : Conv) (pa : Mat ℝ) (extra : σ)
    (step : (i : Nat) → (j : Nat) → (k : Nat) → Mat ℝ → σ → Res (Mat ℝ × σ)) : Res (Mat ℝ × List (Mat ℝ) × σ) := do
  let a ← Mat.mk' (fun _ _ => (0 : ℝ)) pa.nr (c.outputsize * c.nfilter)
  let images ← newImages junk c pa.nr
  loop pa.nr (fun i s => do
    let _sample ← pa.row i
    loop c.pnfilter.toNat (fun j (s : Mat ℝ × List (Mat ℝ) × σ) => do
      let img ← toimage pa j c.inputwidth c.inputheight
      let padded ← addzeropadding c.padding img
      let images ← setSlice s.2.1 i padded
      R (loop c.nfilter.toNat (fun k (s : Mat ℝ × List (Mat ℝ) × σ) => do
        let image ← getSlice s.2.1 i
        let (partialoutput, e) ← step i j k image s.2.2
        let a ← addRowBlock s.1 i k c.outputsize partialoutput
        .ok (a, s.2.1, e)) (s.1, images, s.2.2))) s) (a, images, extra)

/-- How the loops of a forward pass end if a step returns or, when `T` allows it, throws. -/
theorem loopsWith_cases {σ : Type} {R : Res (Mat ℝ × List (Mat ℝ) × σ) → Res (Mat ℝ × List (Mat ℝ) × σ)} {e0 : Stop} (hR : ∀ a, R (.ok a) = .ok a) (hR0 : R (.error .throw) = .error e0) (junk : Nat → Nat → ℝ) {c : Conv} {h w pn nf sp st pd : Nat} (G : c.Geo h w pn nf sp st pd) (x : Mat ℝ) (hm : 0 < x.nr) {extra : σ} {Q : σ → Prop} (hQ : Q extra)
    {T : Prop} {step : Nat → Nat → Nat → Mat ℝ → σ → Res (Mat ℝ × σ)}
    (hs : ∀ i j k m e, i < x.nr → j < pn → k < nf → m.nr = h + 2 * pd → m.nc = w + 2 * pd → Q e →
      (∃ o e', step i j k m e = .ok (o, e') ∧ o.nr = 1 ∧ o.nc = Spec.outLen w sp st pd * Spec.outLen h sp st pd ∧ Q e') ∨ (T ∧ step i j k m e = .error .throw)) :
    (∃ r, loopsWith R junk c x extra step = .ok r) ∨
    ∃ e, loopsWith R junk c x extra step = .error e ∧ ((e = .throw ∧ x.nc < pn * (w * h)) ∨ (e = e0 ∧ T)) := by
  obtain ⟨os, hos⟩ : ∃ os, os = Spec.outLen w sp st pd * Spec.outLen h sp st pd := ⟨_, rfl⟩
  have hos0 : 0 < os := by rw [hos]; exact Nat.mul_pos (Conv.outLen_pos _ _ _ _) (Conv.outLen_pos _ _ _ _)
  unfold loopsWith newImages Mat.mk'
  rw [if_pos ⟨by omega, by rw [G.eos, G.enf]; positivity⟩, ok_bind]
  rw [if_pos ⟨by rw [G.eh, G.epd]; positivity, by rw [G.ew, G.epd]; positivity⟩, ok_bind, ok_bind]
  have ea : (c.outputsize * c.nfilter).toNat = os * nf := by rw [G.eos, G.enf, ← hos, ← Nat.cast_mul, Int.toNat_natCast]
  have e1 : (c.inputheight + 2 * c.padding).toNat = h + 2 * pd := by rw [G.eh, G.epd]; omega
  have e2 : (c.inputwidth + 2 * c.padding).toNat = w + 2 * pd := by rw [G.ew, G.epd]; omega
  rw [ea, e1, e2, Int.toNat_natCast, G.epn, G.enf, G.ew, G.eh, G.epd, G.eos, ← hos, Int.toNat_natCast, Int.toNat_natCast]
  rw [← hos] at hs
  let P : Mat ℝ × List (Mat ℝ) × σ → Prop := fun s => s.1.nr = x.nr ∧ s.1.nc = os * nf ∧ ImagesFit h w pd x.nr s.2.1 ∧ Q s.2.2
  refine (loop_cases P (fun e => (e = .throw ∧ x.nc < pn * (w * h)) ∨ (e = e0 ∧ T)) ⟨rfl, rfl, ⟨by simp, ?_⟩, hQ⟩ ?_).imp (fun ⟨s, h, _⟩ => ⟨s, h⟩) id
  · intro m hm
    rw [List.eq_of_mem_replicate hm]
    exact ⟨rfl, rfl⟩
  intro i s hi hP
  have hrow : x.row (i : Nat) = .ok (Mat.of 1 x.nc (fun _ n => x.f i n)) := by
    unfold Mat.row
    rw [if_pos ⟨by omega, by omega⟩]
    rfl
  rw [hrow, ok_bind]
  refine loop_cases P _ hP ?_
  intro j s hj hP
  by_cases hc : (j + 1) * (w * h) ≤ x.nc
  · rw [Conv.toimage_ok hm G.hh G.hw hc, ok_bind, Conv.addzeropadding_ok, ok_bind]
    obtain ⟨hP1, hP2, ⟨hP3, hP4⟩, hP5⟩ := hP
    have hset : ∃ im, setSlice s.2.1 i (Mat.of (h + 2 * pd) (w + 2 * pd) (fun r c => if pd ≤ r ∧ r < pd + h ∧ pd ≤ c ∧ c < pd + w then Conv.rawPix x h w j (r - pd) (c - pd) else 0)) = .ok im ∧
        ImagesFit h w pd x.nr im := by
      unfold setSlice
      have hlt : i < s.2.1.length := by rw [hP3]; exact hi
      have hg : s.2.1[i]? = some s.2.1[i] := by simp [hlt]
      rw [hg]
      have hd := hP4 _ (List.getElem_mem hlt)
      simp only [Mat.of_nr, Mat.of_nc]
      rw [if_pos hd]
      refine ⟨_, rfl, by simp [hP3], ?_⟩
      intro m hm
      rcases List.mem_or_eq_of_mem_set hm with hm | rfl
      · exact hP4 _ hm
      · exact ⟨rfl, rfl⟩
    obtain ⟨im, him, hfit⟩ := hset
    rw [him, ok_bind]
    have := loop_cases (n := nf) (body := fun k (s : Mat ℝ × List (Mat ℝ) × σ) => do
        let image ← getSlice s.2.1 i
        let (partialoutput, e) ← step i j k image s.2.2
        let a ← addRowBlock s.1 i k os partialoutput
        .ok (a, s.2.1, e)) (s := (s.1, im, s.2.2)) P (fun e => e = .throw ∧ T) ⟨hP1, hP2, hfit, hP5⟩ (by
      intro k s hk hP
      obtain ⟨hP1, hP2, ⟨hP3, hP4⟩, hP5⟩ := hP
      have hlt : i < s.2.1.length := by rw [hP3]; exact hi
      have hg : getSlice s.2.1 i = .ok s.2.1[i] := by
        unfold getSlice
        have hg : s.2.1[i]? = some s.2.1[i] := by simp [hlt]
        rw [hg]
      have hd := hP4 _ (List.getElem_mem hlt)
      simp only [hg, ok_bind]
      rcases hs i j k s.2.1[i] s.2.2 hi hj hk hd.1 hd.2 hP5 with ⟨o, e', h1, h2, h3, h4⟩ | ⟨hT, h1⟩
      · rw [h1, ok_bind]
        obtain ⟨a', h5, h6, h7⟩ := addRowBlock_keeps (a := s.1) hos0 hP2 (by rw [hP1]; exact hi) hk h2 h3
        simp only [h5, ok_bind]
        exact Or.inl ⟨_, rfl, h6.trans hP1, h7, ⟨hP3, hP4⟩, h4⟩
      · rw [h1]
        exact Or.inr ⟨_, rfl, rfl, hT⟩)
    rcases this with ⟨s', h1, h2⟩ | ⟨e, h1, rfl, hT⟩
    · refine Or.inl ⟨s', ?_, h2⟩
      exact (congrArg R h1).trans (hR s')
    · refine Or.inr ⟨e0, ?_, Or.inr ⟨rfl, hT⟩⟩
      exact (congrArg R h1).trans hR0
  · rw [toimage_narrow (by omega)]
    refine Or.inr ⟨_, rfl, Or.inl ⟨rfl, ?_⟩⟩
    have : (j + 1) * (w * h) ≤ pn * (w * h) := Nat.mul_le_mul_right _ hj
    omega

/-- A forward pass that returns has seen all channels. -/
theorem loopsWith_wide {σ : Type} {R : Res (Mat ℝ × List (Mat ℝ) × σ) → Res (Mat ℝ × List (Mat ℝ) × σ)} (hR : ∀ r a, R r = .ok a → r = .ok a) {junk : Nat → Nat → ℝ} {c : Conv} {h w pn nf sp st pd : Nat} (G : c.Geo h w pn nf sp st pd) {x : Mat ℝ} (hm : 0 < x.nr) {extra : σ}
    {step : Nat → Nat → Nat → Mat ℝ → σ → Res (Mat ℝ × σ)} {r : Mat ℝ × List (Mat ℝ) × σ} (e : loopsWith R junk c x extra step = .ok r) :
    pn * (w * h) ≤ x.nc ∧ ∀ j < pn, ∀ k < nf, ∃ m e r, step 0 j k m e = .ok r := by
  unfold loopsWith at e
  obtain ⟨_, -, e⟩ := bind_eq_ok e
  obtain ⟨_, -, e⟩ := bind_eq_ok e
  obtain ⟨t, t', e⟩ := omp_loop_ok_each e 0 hm
  obtain ⟨_, -, e⟩ := bind_eq_ok e
  rw [G.epn, Int.toNat_natCast] at e
  refine ⟨?_, ?_⟩
  · have hpn := G.hpn
    obtain ⟨u, u', e⟩ := omp_loop_ok_each e (pn - 1) (by omega)
    obtain ⟨_, e, -⟩ := bind_eq_ok e
    by_contra hlt
    rw [G.ew, G.eh, toimage_narrow (by rw [show pn - 1 + 1 = pn by omega]; omega)] at e
    cases e
  · intro j hj k hk
    obtain ⟨u, u', e⟩ := omp_loop_ok_each e j hj
    obtain ⟨_, -, e⟩ := bind_eq_ok e
    obtain ⟨_, -, e⟩ := bind_eq_ok e
    obtain ⟨_, -, e⟩ := bind_eq_ok e
    have e := hR _ _ e
    rw [G.enf, Int.toNat_natCast] at e
    obtain ⟨v, v', e⟩ := omp_loop_ok_each e k hk
    obtain ⟨m, -, e⟩ := bind_eq_ok e
    obtain ⟨q, hq, -⟩ := bind_eq_ok e
    exact ⟨m, v.2.2, q, hq⟩

theorem Conv.channelLoopsOmp_cases {σ : Type} (junk : Nat → Nat → ℝ) {c : Conv} {h w pn nf sp st pd : Nat} (G : c.Geo h w pn nf sp st pd) (x : Mat ℝ) (hm : 0 < x.nr) {extra : σ} {Q : σ → Prop} (hQ : Q extra)
    {T : Prop} {step : Nat → Nat → Nat → Mat ℝ → σ → Res (Mat ℝ × σ)}
    (hs : ∀ i j k m e, i < x.nr → j < pn → k < nf → m.nr = h + 2 * pd → m.nc = w + 2 * pd → Q e →
      (∃ o e', step i j k m e = .ok (o, e') ∧ o.nr = 1 ∧ o.nc = Spec.outLen w sp st pd * Spec.outLen h sp st pd ∧ Q e') ∨ (T ∧ step i j k m e = .error .throw)) :
    (∃ r, Conv.channelLoopsOmp junk c x extra step = .ok r) ∨
    ∃ e, Conv.channelLoopsOmp junk c x extra step = .error e ∧ ((e = .throw ∧ x.nc < pn * (w * h)) ∨ (e = .abort ∧ T)) :=
  loopsWith_cases (R := region) (fun _ => rfl) rfl junk G x hm hQ hs

theorem Conv.channelLoopsOmp_wide {σ : Type} {junk : Nat → Nat → ℝ} {c : Conv} {h w pn nf sp st pd : Nat} (G : c.Geo h w pn nf sp st pd) {x : Mat ℝ} (hm : 0 < x.nr) {extra : σ}
    {step : Nat → Nat → Nat → Mat ℝ → σ → Res (Mat ℝ × σ)} {r : Mat ℝ × List (Mat ℝ) × σ} (e : Conv.channelLoopsOmp junk c x extra step = .ok r) :
    pn * (w * h) ≤ x.nc ∧ ∀ j < pn, ∀ k < nf, ∃ m e r, step 0 j k m e = .ok r :=
  loopsWith_wide (R := region) (fun _ _ => region_eq_ok) G hm e

theorem spatialBlock_cases {W : Mat ℝ} {sp j k : Nat} (h0 : 0 < sp) :
    ((j + 1) * sp ≤ W.nr ∧ (k + 1) * sp ≤ W.nc ∧ ∃ m, spatialBlock sp W j k = .ok m ∧ m.nr = sp ∧ m.nc = sp) ∨
    ((W.nr < (j + 1) * sp ∨ W.nc < (k + 1) * sp) ∧ spatialBlock sp W j k = .error .throw) := by
  by_cases h1 : (j + 1) * sp ≤ W.nr ∧ (k + 1) * sp ≤ W.nc
  · exact Or.inl ⟨h1.1, h1.2, _, Conv.spatialBlock_ok h0 h1.1 h1.2, rfl, rfl⟩
  · refine Or.inr ⟨by omega, ?_⟩
    unfold spatialBlock Mat.submat
    have c1 : ((j : Int) + 1) * sp = (((j + 1) * sp : Nat) : Int) := by push_cast; ring
    have c2 : ((k : Int) + 1) * sp = (((k + 1) * sp : Nat) : Int) := by push_cast; ring
    rw [if_neg]
    unfold Mat.InView
    rw [c1, c2]
    omega

theorem Conv.step_cases (junk : Nat → Nat → ℝ) {L : Layer} {c : Conv} {h w pn nf sp st pd : Nat} (G : c.Geo h w pn nf sp st pd) {j k : Nat} (hj : j < pn) (hk : k < nf) {m : Mat ℝ}
    (h1 : m.nr = h + 2 * pd) (h2 : m.nc = w + 2 * pd) :
    (∃ o, (do let kernel ← spatialBlock c.spatial L.W j k
              let o ← convolve junk c.stride m kernel
              .ok (o, ()) : Res (Mat ℝ × Unit)) = .ok (o, ()) ∧ o.nr = 1 ∧ o.nc = Spec.outLen w sp st pd * Spec.outLen h sp st pd) ∨
    (¬ (sp * pn ≤ L.W.nr ∧ sp * nf ≤ L.W.nc) ∧ (do
              let kernel ← spatialBlock c.spatial L.W j k
              let o ← convolve junk c.stride m kernel
              .ok (o, ()) : Res (Mat ℝ × Unit)) = .error .throw) := by
  have bh := G.bh
  have bw := G.bw
  rw [G.esp, G.est]
  rcases spatialBlock_cases (W := L.W) (j := j) (k := k) G.hsp with ⟨-, -, K, e1, e2, e3⟩ | ⟨hlt, e1⟩
  · left
    rw [e1, ok_bind, Conv.convolve_ok junk G.hst (by rw [e2]; exact G.hsp) (by rw [e3]; exact G.hsp) (by rw [e2, h1]; exact G.fh) (by rw [e3, h2]; exact G.fw) (by rw [h1]; exact bh) (by rw [h2]; exact bw) rfl rfl]
    refine ⟨_, rfl, rfl, ?_⟩
    show ((m.nr - K.nr) / st + 1) * ((m.nc - K.nc) / st + 1) = _
    rw [h1, h2, e2, e3, Nat.mul_comm]
    rfl
  · right
    rw [e1]
    refine ⟨?_, rfl⟩
    have a1 : (j + 1) * sp ≤ sp * pn := by rw [Nat.mul_comm sp]; exact Nat.mul_le_mul_right _ hj
    have a2 : (k + 1) * sp ≤ sp * nf := by rw [Nat.mul_comm sp]; exact Nat.mul_le_mul_right _ hk
    omega

/-- C108, forward pass of a convolution layer with OpenMP, weights of the size the constructor makes or larger: every input with at least one row is accepted if it is wide enough and reported by an exception if
it is not; the program is never terminated. -/
theorem C108_forward (junk : Nat → Nat → ℝ) {L : Layer} {c : Conv} {h w pn nf sp st pd : Nat} (G : c.Geo h w pn nf sp st pd) (hr : sp * pn ≤ L.W.nr) (hcc : sp * nf ≤ L.W.nc) {x : Mat ℝ} (hm : 0 < x.nr) :
    (pn * (w * h) ≤ x.nc → ∃ r, Conv.forwardpropOmp junk L c x = .ok r ∧ Conv.forwardprop junk L c x = .ok r) ∧
    (x.nc < pn * (w * h) → Conv.forwardpropOmp junk L c x = .error .throw) := by
  have key := Conv.channelLoopsOmp_cases junk G x hm (extra := ()) (Q := fun _ => True) trivial (T := False) (step := fun _ j k image _ => do
    let kernel ← spatialBlock c.spatial L.W j k
    let o ← convolve junk c.stride image kernel
    .ok (o, ())) (by
      intro i j k m e hi hj hk h1 h2 _
      rcases Conv.step_cases junk (L := L) G hj hk h1 h2 with ⟨o, e1, e2, e3⟩ | ⟨hn, -⟩
      · exact Or.inl ⟨o, (), e1, e2, e3, trivial⟩
      · exact absurd ⟨hr, hcc⟩ hn)
  refine ⟨fun hc => ?_, fun hc => ?_⟩
  · rcases key with ⟨r, e⟩ | ⟨e, -, ⟨-, h⟩ | ⟨-, h⟩⟩
    · have hf : Conv.forwardpropOmp junk L c x = .ok (funcop r.1 L.actfunc.act, { L with a := r.1 }, { c with images := r.2.1 }) := by
        unfold Conv.forwardpropOmp
        rw [e, ok_bind]
      refine ⟨_, hf, ?_⟩
      rcases (C108_same junk L c x).1 with h | ⟨-, h⟩
      · rw [← h, hf]
      · rw [hf] at h; cases h
    · omega
    · exact h.elim
  · rcases key with ⟨r, e⟩ | ⟨e, h, ⟨rfl, -⟩ | ⟨-, h⟩⟩
    · have := (Conv.channelLoopsOmp_wide G hm e).1
      omega
    · unfold Conv.forwardpropOmp
      rw [h]
      rfl
    · exact h.elim

/-- C108, pooling: the same for max pooling (below 16 filters, see C58) and mean pooling, whatever the weights. -/
theorem C108_pooling (junk : Nat → Nat → ℝ) {L : Layer} {c : Conv} {h w nf sp st : Nat} (G : c.Geo h w nf nf sp st 0) {x : Mat ℝ} (hm : 0 < x.nr) :
    ((nf * (w * h) ≤ x.nc → ∃ r, MaxPool.forwardpropOmp junk L c x = .ok r ∧ MaxPool.forwardprop junk L c x = .ok r) ∧ (x.nc < nf * (w * h) → MaxPool.forwardpropOmp junk L c x = .error .throw)) ∧
    (nf * (w * h) ≤ x.nc → ∃ r, MeanPool.forwardpropOmp junk L c x = .ok r ∧ MeanPool.forwardprop junk L c x = .ok r) ∧ (x.nc < nf * (w * h) → MeanPool.forwardpropOmp junk L c x = .error .throw) := by
  have bh := G.bh
  have bw := G.bw
  have fh := G.fh
  have fw := G.fw
  obtain ⟨os, hos⟩ : ∃ os, os = Spec.outLen w sp st 0 * Spec.outLen h sp st 0 := ⟨_, rfl⟩
  have hos0 : 0 < os := by rw [hos]; exact Nat.mul_pos (Conv.outLen_pos _ _ _ _) (Conv.outLen_pos _ _ _ _)
  constructor
  · have hmk : Mat.mk' junk x.nr (c.outputsize * 2) = .ok (Mat.of x.nr (os * 2) junk) := by
      unfold Mat.mk'
      rw [if_pos ⟨by omega, by rw [G.eos]; positivity⟩, G.eos, ← hos, Int.toNat_natCast, show ((os : Int) * 2).toNat = os * 2 by omega]
    have key := Conv.channelLoopsOmp_cases junk G x hm (extra := Mat.of x.nr (os * 2) junk) (Q := fun e => e.nr = x.nr ∧ e.nc = os * 2) ⟨rfl, rfl⟩ (T := False) (step := fun i _ _ image indexes => do
      let (o, index) ← MaxPool.maxpool c.spatial c.stride image
      let indexes ← indexes.updSubmat (fun _ v => v) i 0 i (c.outputsize * 2 - 1) index
      .ok (o, indexes)) (by
        intro i j k m e hi hj hk h1 h2 hQ
        left
        obtain ⟨idx, i1, i2, i3⟩ := maxpool_ok (x := m) G.hsp G.hst (by omega) (by omega) (by omega) (by omega) rfl rfl
        rw [G.esp, G.est, i3, ok_bind]
        have eo : ((m.nc - sp) / st + 1) * ((m.nr - sp) / st + 1) = os := by rw [hos, h1, h2]; rfl
        have hup : ∃ e', e.updSubmat (fun _ v => v) i 0 i (c.outputsize * 2 - 1) idx = .ok e' ∧ e'.nr = e.nr ∧ e'.nc = e.nc := by
          unfold Mat.updSubmat
          rw [G.eos, ← hos]
          rw [if_pos (by unfold Mat.InView; rw [hQ.1, hQ.2]; omega), if_pos (by rw [i1, i2, eo]; omega)]
          exact ⟨_, rfl, rfl, rfl⟩
        obtain ⟨e', u1, u2, u3⟩ := hup
        simp only [u1, ok_bind]
        refine ⟨_, _, rfl, rfl, ?_, u2.trans hQ.1, u3.trans hQ.2⟩
        show ((m.nr - sp) / st + 1) * ((m.nc - sp) / st + 1) = _
        rw [Nat.mul_comm, eo, hos])
    refine ⟨fun hc => ?_, fun hc => ?_⟩
    · rcases key with ⟨r, e⟩ | ⟨e, -, ⟨-, h⟩ | ⟨-, h⟩⟩
      · have hf : MaxPool.forwardpropOmp junk L c x = .ok (funcop r.1 L.actfunc.act, { L with a := r.1 }, { c with images := r.2.1 }, r.2.2) := by
          unfold MaxPool.forwardpropOmp
          rw [hmk, ok_bind, e, ok_bind]
        refine ⟨_, hf, ?_⟩
        rcases (C108_same junk L c x).2.2.1 with h | ⟨-, h⟩
        · rw [← h, hf]
        · rw [hf] at h; cases h
      · omega
      · exact h.elim
    · rcases key with ⟨r, e⟩ | ⟨e, h, ⟨rfl, -⟩ | ⟨-, h⟩⟩
      · have := (Conv.channelLoopsOmp_wide G hm e).1
        omega
      · unfold MaxPool.forwardpropOmp
        rw [hmk, ok_bind, h]
        rfl
      · exact h.elim
  · have key := Conv.channelLoopsOmp_cases junk G x hm (extra := ()) (Q := fun _ => True) trivial (T := False) (step := fun _ _ _ image _ => do
      let o ← MeanPool.meanpool c.spatial c.stride image
      .ok (o, ())) (by
        intro i j k m e hi hj hk h1 h2 _
        left
        rw [G.esp, G.est, meanpool_ok (x := m) G.hsp G.hst (by omega) (by omega) (by omega) (by omega) rfl rfl, ok_bind]
        refine ⟨_, (), rfl, rfl, ?_, trivial⟩
        show ((m.nr - sp) / st + 1) * ((m.nc - sp) / st + 1) = _
        rw [h1, h2, Nat.mul_comm]
        rfl)
    refine ⟨fun hc => ?_, fun hc => ?_⟩
    · rcases key with ⟨r, e⟩ | ⟨e, -, ⟨-, h⟩ | ⟨-, h⟩⟩
      · have hf : MeanPool.forwardpropOmp junk L c x = .ok (funcop r.1 L.actfunc.act, { L with a := r.1 }, { c with images := r.2.1 }) := by
          unfold MeanPool.forwardpropOmp
          rw [e, ok_bind]
        refine ⟨_, hf, ?_⟩
        rcases (C108_same junk L c x).2.2.2 with h | ⟨-, h⟩
        · rw [← h, hf]
        · rw [hf] at h; cases h
      · omega
      · exact h.elim
    · rcases key with ⟨r, e⟩ | ⟨e, h, ⟨rfl, -⟩ | ⟨-, h⟩⟩
      · have := (Conv.channelLoopsOmp_wide G hm e).1
        omega
      · unfold MeanPool.forwardpropOmp
        rw [h]
        rfl
      · exact h.elim

/-- C108, what does not hold: after `setw` with too few rows or columns a forward pass for a proper input is not reported by an exception; it terminates the program, where a build without OpenMP throws. -/
theorem C108_weights_refuted (junk : Nat → Nat → ℝ) {L : Layer} {c : Conv} {h w pn nf sp st pd : Nat} (G : c.Geo h w pn nf sp st pd) (hW : L.W.nr < sp * pn ∨ L.W.nc < sp * nf) {x : Mat ℝ} (hm : 0 < x.nr)
    (hc : pn * (w * h) ≤ x.nc) : Conv.forwardpropOmp junk L c x = .error .abort ∧ Conv.forwardprop junk L c x = .error .throw := by
  have key := Conv.channelLoopsOmp_cases junk G x hm (extra := ()) (Q := fun _ => True) trivial (T := True) (step := fun _ j k image _ => do
    let kernel ← spatialBlock c.spatial L.W j k
    let o ← convolve junk c.stride image kernel
    .ok (o, ())) (by
      intro i j k m e hi hj hk h1 h2 _
      rcases Conv.step_cases junk (L := L) G hj hk h1 h2 with ⟨o, e1, e2, e3⟩ | ⟨-, e1⟩
      · exact Or.inl ⟨o, (), e1, e2, e3, trivial⟩
      · exact Or.inr ⟨trivial, e1⟩)
  have hab : Conv.forwardpropOmp junk L c x = .error .abort := by
    rcases key with ⟨r, e⟩ | ⟨e, h, ⟨-, h'⟩ | ⟨rfl, -⟩⟩
    · have hpn := G.hpn
      have hnf := G.hnf
      obtain ⟨m, _, q, e⟩ := (Conv.channelLoopsOmp_wide G hm e).2 (pn - 1) (by omega) (nf - 1) (by omega)
      obtain ⟨K, e, -⟩ := bind_eq_ok e
      rw [G.esp] at e
      rcases spatialBlock_cases (W := L.W) (j := pn - 1) (k := nf - 1) G.hsp with ⟨e1, e2, -⟩ | ⟨-, e1⟩
      · rw [show pn - 1 + 1 = pn by omega, Nat.mul_comm] at e1
        rw [show nf - 1 + 1 = nf by omega, Nat.mul_comm] at e2
        omega
      · rw [e1] at e; cases e
    · omega
    · unfold Conv.forwardpropOmp
      rw [h]
      rfl
  refine ⟨hab, ?_⟩
  rcases (C108_same junk L c x).1 with h | ⟨h, -⟩
  · exfalso
    rw [hab] at h
    have key := loopsWith_cases (R := id) (e0 := .throw) (fun _ => rfl) rfl junk G x hm (extra := ()) (Q := fun _ => True) trivial (T := True) (step := fun _ j k image _ => do
      let kernel ← spatialBlock c.spatial L.W j k
      let o ← convolve junk c.stride image kernel
      .ok (o, ())) (by
        intro i j k m e hi hj hk h1 h2 _
        rcases Conv.step_cases junk (L := L) G hj hk h1 h2 with ⟨o, e1, e2, e3⟩ | ⟨-, e1⟩
        · exact Or.inl ⟨o, (), e1, e2, e3, trivial⟩
        · exact Or.inr ⟨trivial, e1⟩)
    have hl : ∀ step, Conv.channelLoops junk c x () step = loopsWith id junk c x () step := fun _ => rfl
    unfold Conv.forwardprop at h
    rcases key with ⟨r, e⟩ | ⟨e, h', h2⟩
    · rw [hl, e] at h
      cases h
    · rw [hl, h'] at h
      rcases h2 with ⟨rfl, -⟩ | ⟨rfl, -⟩ <;> cases h
  · exact h

/-! ## Backward passes -/

/-- One iteration of the loop over the input channels. -/
def backStep (junk : Nat → Nat → ℝ) (L : Layer) (c : Conv) (dimg : Mat ℝ) (i k j : Nat) (s : Mat ℝ × Mat ℝ) : Res (Mat ℝ × Mat ℝ) := do
  let image ← getSlice c.images i
  let partialgrad ← convolve junk c.stride image dimg
  let partialgrad ← (if 0 ≤ c.spatial then .ok (partialgrad.reshape c.spatial.toNat c.spatial.toNat) else .error .throw : Res _)
  let grad ← s.2.updSubmat (· + ·) (j * c.spatial) (k * c.spatial) (((j : Int) + 1) * c.spatial - 1) (((k : Int) + 1) * c.spatial - 1) partialgrad
  let paddimg ← addzeropadding c.padding dimg
  let kernel ← flip c.spatial L.W j k
  let partialdelta ← convolve junk c.stride paddimg kernel
  let delta ← addRowBlock s.1 i j c.inputsize partialdelta
  .ok (delta, grad)

/-- The backward pass with or without OpenMP. -/
def backWith (R : Res (Mat ℝ × Mat ℝ) → Res (Mat ℝ × Mat ℝ)) (junk : Nat → Nat → ℝ) (L : Layer) (c : Conv) (del : Mat ℝ) : Res (Mat ℝ × Layer × Conv) := do
  let delta ← Mat.mk' (fun _ _ => (0 : ℝ)) del.nr (c.inputsize * c.pnfilter)
  let grad := Mat.of L.grad.nr L.grad.nc (fun _ _ => (0 : ℝ))
  let d := funcop del L.actfunc.actd
  let (delta, grad) ← loop d.nr (fun i s => do
    let deltay ← d.row i
    loop c.nfilter.toNat (fun k s => do
      let dimg ← toimage deltay k c.outputwidth c.outputheight
      R (loop c.pnfilter.toNat (backStep junk L c dimg i k) s)) s) (delta, grad)
  .ok (delta, { L with delta := delta, grad := grad }, c)

theorem backpropOmp_with (junk : Nat → Nat → ℝ) (L : Layer) (c : Conv) (del : Mat ℝ) : Conv.backpropOmp junk L c del = backWith region junk L c del := rfl
theorem backprop_with (junk : Nat → Nat → ℝ) (L : Layer) (c : Conv) (del : Mat ℝ) : Conv.backprop junk L c del = backWith id junk L c del := rfl

theorem backStep_cases (junk : Nat → Nat → ℝ) {L : Layer} {c : Conv} {h w pn nf sp pd : Nat} (G : c.Geo h w pn nf sp 1 pd) (hsame : sp = 2 * pd + 1) (hr : L.W.nr = sp * pn) (hcc : L.W.nc = sp * nf)
    (hi : ∀ m ∈ c.images, m.nr = h + 2 * pd ∧ m.nc = w + 2 * pd) {D : Mat ℝ} (hD : D.nr = h ∧ D.nc = w) {n i j k : Nat} (hin : i < n) (hj : j < pn) (hk : k < nf) {s : Mat ℝ × Mat ℝ}
    (h1 : s.1.nr = n) (h2 : s.1.nc = w * h * pn) (h3 : s.2.nr = sp * pn) (h4 : s.2.nc = sp * nf) :
    (∃ s', backStep junk L c D i k j s = .ok s' ∧ s'.1.nr = n ∧ s'.1.nc = w * h * pn ∧ s'.2.nr = sp * pn ∧ s'.2.nc = sp * nf) ∨
    (c.images.length < n ∧ backStep junk L c D i k j s = .error .throw) := by
  by_cases hl : i < c.images.length
  · left
    let I : Nat → Mat ℝ := fun _ => c.images[i]
    have hd := hi _ (List.getElem_mem hl)
    have G' : Conv.Geo { c with images := (List.range n).map I } h w pn nf sp 1 pd :=
      ⟨G.eh, G.ew, G.es, G.eoh, G.eow, G.eos, G.epn, G.enf, G.esp, G.est, G.epd, G.hh, G.hw, G.hpn, G.hnf, G.hsp, G.hst, G.fh, G.fw, G.bh, G.bw⟩
    have e := Conv.back_body junk (L := L) G' hsame hin hj hk (I := I) hd rfl hr hcc hD s.1.f s.2.f
    rw [← h1, ← h2, ← h3, ← h4, Mat.of_self, Mat.of_self] at e
    have hg : getSlice c.images i = getSlice ((List.range s.1.nr).map I) i := by
      rw [Conv.getSlice_map (by omega)]
      unfold getSlice
      have : c.images[i]? = some c.images[i] := by simp [hl]
      rw [this]
    unfold backStep
    rw [hg]
    refine ⟨_, e, h1, h2, h3, h4⟩
  · right
    refine ⟨by omega, ?_⟩
    unfold backStep getSlice
    have : c.images[i]? = none := by simp; omega
    rw [this]
    rfl

theorem outLen_same {h sp pd : Nat} (hh : 0 < h) (hsame : sp = 2 * pd + 1) : Spec.outLen h sp 1 pd = h := by
  unfold Spec.outLen
  rw [Nat.div_one]
  omega

theorem backWith_cases {R : Res (Mat ℝ × Mat ℝ) → Res (Mat ℝ × Mat ℝ)} {e0 : Stop} (hR : ∀ a, R (.ok a) = .ok a) (hR0 : R (.error .throw) = .error e0) (junk : Nat → Nat → ℝ) {L : Layer} {c : Conv}
    {h w pn nf sp pd : Nat} (G : c.Geo h w pn nf sp 1 pd) (hsame : sp = 2 * pd + 1) (hr : L.W.nr = sp * pn) (hcc : L.W.nc = sp * nf) (hgr : L.grad.nr = sp * pn) (hgc : L.grad.nc = sp * nf)
    (hi : ∀ m ∈ c.images, m.nr = h + 2 * pd ∧ m.nc = w + 2 * pd) (del : Mat ℝ) :
    (∃ r, backWith R junk L c del = .ok r) ∨ ∃ e, backWith R junk L c del = .error e ∧ ((e = .throw ∧ del.nc < nf * (w * h)) ∨ (e = e0 ∧ c.images.length < del.nr)) := by
  have hoh := outLen_same (h := h) G.hh hsame
  have how := outLen_same (h := w) G.hw hsame
  unfold backWith Mat.mk'
  have epn : (c.inputsize * c.pnfilter).toNat = w * h * pn := by rw [G.es, G.epn, ← Nat.cast_mul, Int.toNat_natCast]
  rw [if_pos ⟨by omega, by rw [G.es, G.epn]; positivity⟩, ok_bind, epn, Int.toNat_natCast, hgr, hgc, G.enf, G.epn, G.eow, G.eoh, hoh, how]
  simp only [Int.toNat_natCast]
  have hdnr : (funcop del L.actfunc.actd).nr = del.nr := rfl
  rw [hdnr]
  let P : Mat ℝ × Mat ℝ → Prop := fun s => s.1.nr = del.nr ∧ s.1.nc = w * h * pn ∧ s.2.nr = sp * pn ∧ s.2.nc = sp * nf
  have key := loop_cases (n := del.nr) (body := fun i s => do
      let deltay ← (funcop del L.actfunc.actd).row (i : Nat)
      loop nf (fun k s => do
        let dimg ← toimage deltay k w h
        R (loop pn (backStep junk L c dimg i k) s)) s)
    (s := (Mat.of del.nr (w * h * pn) (fun _ _ => (0 : ℝ)), Mat.of (sp * pn) (sp * nf) (fun _ _ => (0 : ℝ)))) P
    (fun e => (e = .throw ∧ del.nc < nf * (w * h)) ∨ (e = e0 ∧ c.images.length < del.nr)) ⟨rfl, rfl, rfl, rfl⟩ (by
      intro i s hin hP
      have hrow : (funcop del L.actfunc.actd).row (i : Nat) = .ok (Mat.of 1 del.nc (fun _ n => (funcop del L.actfunc.actd).f i n)) := by
        unfold Mat.row
        rw [if_pos ⟨by omega, by rw [hdnr]; omega⟩]
        rfl
      simp only [hrow, ok_bind]
      refine loop_cases P _ hP ?_
      intro k s hk hP
      by_cases hc : (k + 1) * (w * h) ≤ del.nc
      · simp only [Conv.toimage_ok (pa := Mat.of 1 del.nc (fun _ n => (funcop del L.actfunc.actd).f i n)) Nat.one_pos G.hh G.hw hc, ok_bind]
        have := loop_cases (n := pn) (body := backStep junk L c (Mat.of h w (Conv.rawPix (Mat.of 1 del.nc (fun _ n => (funcop del L.actfunc.actd).f i n)) h w k)) i k) (s := s) P
          (fun e => e = .throw ∧ c.images.length < del.nr) hP (fun j s hj hP => (backStep_cases junk G hsame hr hcc hi ⟨rfl, rfl⟩ hin hj hk hP.1 hP.2.1 hP.2.2.1 hP.2.2.2).imp
            (fun ⟨s', h1, h2⟩ => ⟨s', h1, h2⟩) (fun ⟨h1, h2⟩ => ⟨_, h2, rfl, h1⟩))
        rcases this with ⟨s', h1, h2⟩ | ⟨e, h1, rfl, hT⟩
        · exact Or.inl ⟨s', (congrArg R h1).trans (hR s'), h2⟩
        · exact Or.inr ⟨e0, (congrArg R h1).trans hR0, Or.inr ⟨rfl, hT⟩⟩
      · rw [toimage_narrow (by exact Nat.lt_of_not_le hc)]
        refine Or.inr ⟨_, rfl, Or.inl ⟨rfl, ?_⟩⟩
        have : (k + 1) * (w * h) ≤ nf * (w * h) := Nat.mul_le_mul_right _ hk
        omega)
  rcases key with ⟨s', h1, -⟩ | ⟨e, h1, he⟩
  · rw [h1]
    exact Or.inl ⟨_, rfl⟩
  · rw [h1]
    exact Or.inr ⟨e, rfl, he⟩

theorem backWith_seen {R : Res (Mat ℝ × Mat ℝ) → Res (Mat ℝ × Mat ℝ)} (hR : ∀ r a, R r = .ok a → r = .ok a) {junk : Nat → Nat → ℝ} {L : Layer} {c : Conv}
    {h w pn nf sp pd : Nat} (G : c.Geo h w pn nf sp 1 pd) (hsame : sp = 2 * pd + 1) {del : Mat ℝ} {r : Mat ℝ × Layer × Conv} (e : backWith R junk L c del = .ok r) :
    del.nr ≤ c.images.length ∧ (0 < del.nr → nf * (w * h) ≤ del.nc) := by
  have hnf := G.hnf
  unfold backWith at e
  obtain ⟨_, -, e⟩ := bind_eq_ok e
  obtain ⟨_, e, -⟩ := bind_eq_ok e
  have each := omp_loop_ok_each e
  refine ⟨?_, fun hm => ?_⟩
  · by_contra hlt
    obtain ⟨t, t', e⟩ := each (del.nr - 1) (by show _ < del.nr; omega)
    obtain ⟨_, -, e⟩ := bind_eq_ok e
    rw [G.enf, Int.toNat_natCast] at e
    obtain ⟨u, u', e⟩ := omp_loop_ok_each e 0 hnf
    obtain ⟨_, -, e⟩ := bind_eq_ok e
    have e := hR _ _ e
    rw [G.epn, Int.toNat_natCast] at e
    obtain ⟨v, v', e⟩ := omp_loop_ok_each e 0 G.hpn
    unfold backStep at e
    obtain ⟨_, e, -⟩ := bind_eq_ok e
    unfold getSlice at e
    have : c.images[del.nr - 1]? = none := by simp; omega
    rw [this] at e
    cases e
  · obtain ⟨t, t', e⟩ := each 0 hm
    obtain ⟨y, hy, e⟩ := bind_eq_ok e
    rw [G.enf, Int.toNat_natCast] at e
    obtain ⟨u, u', e⟩ := omp_loop_ok_each e (nf - 1) (by omega)
    obtain ⟨_, e, -⟩ := bind_eq_ok e
    by_contra hlt
    have hyc : y.nc = del.nc := by
      unfold Mat.row at hy
      split at hy
      · cases hy; rfl
      · cases hy
    rw [G.eow, G.eoh, outLen_same G.hw hsame, outLen_same G.hh hsame, toimage_narrow (by rw [show nf - 1 + 1 = nf by omega]; omega)] at e
    cases e

/-- C108, backward pass of a convolution layer that keeps the size of the picture, with OpenMP: as long as the delta has no more rows than the last input had, it is accepted if it is wide enough and reported by
an exception if it is not. -/
theorem C108_backward (junk : Nat → Nat → ℝ) {L : Layer} {c : Conv} {h w pn nf sp pd : Nat} (G : c.Geo h w pn nf sp 1 pd) (hsame : sp = 2 * pd + 1) (hr : L.W.nr = sp * pn) (hcc : L.W.nc = sp * nf)
    (hgr : L.grad.nr = sp * pn) (hgc : L.grad.nc = sp * nf) (hi : ∀ m ∈ c.images, m.nr = h + 2 * pd ∧ m.nc = w + 2 * pd) {del : Mat ℝ} (hm : 0 < del.nr) (hrows : del.nr ≤ c.images.length) :
    (nf * (w * h) ≤ del.nc → ∃ r, Conv.backpropOmp junk L c del = .ok r ∧ Conv.backprop junk L c del = .ok r) ∧
    (del.nc < nf * (w * h) → Conv.backpropOmp junk L c del = .error .throw) := by
  have key := backWith_cases (R := region) (fun _ => rfl) rfl junk G hsame hr hcc hgr hgc hi del
  rw [← backpropOmp_with] at key
  refine ⟨fun hc => ?_, fun hc => ?_⟩
  · rcases key with ⟨r, e⟩ | ⟨e, -, ⟨-, h⟩ | ⟨-, h⟩⟩
    · refine ⟨r, e, ?_⟩
      rcases (C108_same junk L c del).2.1 with h | ⟨-, h⟩
      · rw [← h, e]
      · rw [e] at h; cases h
    · omega
    · omega
  · rcases key with ⟨r, e⟩ | ⟨e, h, ⟨rfl, -⟩ | ⟨-, h⟩⟩
    · have := (backWith_seen (R := region) (fun _ _ => region_eq_ok) G hsame (by rw [← backpropOmp_with]; exact e)).2 hm
      omega
    · exact h
    · omega

/-- C108, what does not hold: a delta with more rows than the last input had terminates the program, where a build without OpenMP throws. -/
theorem C108_rows_refuted (junk : Nat → Nat → ℝ) {L : Layer} {c : Conv} {h w pn nf sp pd : Nat} (G : c.Geo h w pn nf sp 1 pd) (hsame : sp = 2 * pd + 1) (hr : L.W.nr = sp * pn) (hcc : L.W.nc = sp * nf)
    (hgr : L.grad.nr = sp * pn) (hgc : L.grad.nc = sp * nf) (hi : ∀ m ∈ c.images, m.nr = h + 2 * pd ∧ m.nc = w + 2 * pd) {del : Mat ℝ} (hrows : c.images.length < del.nr) (hc : nf * (w * h) ≤ del.nc) :
    Conv.backpropOmp junk L c del = .error .abort ∧ Conv.backprop junk L c del = .error .throw := by
  constructor
  · have key := backWith_cases (R := region) (fun _ => rfl) rfl junk G hsame hr hcc hgr hgc hi del
    rw [← backpropOmp_with] at key
    rcases key with ⟨r, e⟩ | ⟨e, h, ⟨-, h'⟩ | ⟨rfl, -⟩⟩
    · have := (backWith_seen (R := region) (fun _ _ => region_eq_ok) G hsame (by rw [← backpropOmp_with]; exact e)).1
      omega
    · omega
    · exact h
  · have key := backWith_cases (R := id) (e0 := .throw) (fun _ => rfl) rfl junk G hsame hr hcc hgr hgc hi del
    rw [← backprop_with] at key
    rcases key with ⟨r, e⟩ | ⟨e, h, ⟨rfl, -⟩ | ⟨rfl, -⟩⟩
    · have := (backWith_seen (R := id) (fun _ _ h => h) G hsame (by rw [← backprop_with]; exact e)).1
      omega
    · exact h
    · exact h

theorem loop_not_throw {σ : Type} {n : Nat} {body : Nat → σ → Res σ} (hs : ∀ i s, i < n → body i s ≠ .error .throw) (s : σ) : loop n body s ≠ .error .throw := by
  induction n with
  | zero => intro h; cases h
  | succ n ih =>
    intro h
    unfold loop at h
    cases h1 : loop n body s with
    | error e =>
      rw [h1] at h
      exact ih (fun i s hi => hs i s (by omega)) (h1.trans h)
    | ok t =>
      rw [h1] at h
      exact hs n t (by omega) h

theorem region_not_throw {α : Type} (r : Res α) : region r ≠ .error .throw := by
  intro h
  cases r with
  | ok a => cases h
  | error e => cases e <;> cases h

theorem bind_eq_throw {α β : Type} {r : Res α} {f : α → Res β} (hf : ∀ a, f a ≠ .error .throw) (h : (r >>= f) = .error .throw) : r = .error .throw := by
  cases r with
  | ok a => exact absurd h (hf a)
  | error e => exact congrArg Except.error (Except.error.inj h)

/-- C108, what does not hold: a layer that changes the size of the picture (stride 1, `spatial` not `2 * padding + 1`) cannot be trained; a build without OpenMP reports this by an exception (C49), a build with
OpenMP terminates the program. -/
theorem C108_geometry_refuted (junk : Nat → Nat → ℝ) {L : Layer} {c : Conv} {h w pn nf sp pd : Nat} (G : c.Geo h w pn nf sp 1 pd) (hne : sp ≠ 2 * pd + 1)
    (hfit : 2 * sp ≤ h + 4 * pd + 1 ∧ 2 * sp ≤ w + 4 * pd + 1) (hb : h + 4 * pd < 2 ^ 31 ∧ w + 4 * pd < 2 ^ 31)
    {del : Mat ℝ} (hm : 0 < del.nr) {I : Nat → Mat ℝ} (hI : ∀ i, i < del.nr → (I i).nr = h + 2 * pd ∧ (I i).nc = w + 2 * pd)
    (himg : c.images = (List.range del.nr).map I) (hr : L.W.nr = sp * pn) (hcc : L.W.nc = sp * nf) (hgr : L.grad.nr = sp * pn) (hgc : L.grad.nc = sp * nf)
    (hdc : nf * (Spec.outLen h sp 1 pd * Spec.outLen w sp 1 pd) ≤ del.nc) :
    Conv.backpropOmp junk L c del = .error .abort ∧ Conv.backprop junk L c del = .error .throw := by
  have hp := C49_throws junk G hne hfit hb hm hI himg hr hcc hgr hgc hdc
  refine ⟨?_, hp⟩
  rcases (C108_same junk L c del).2.1 with h' | ⟨-, h'⟩
  · exfalso
    rw [hp, backpropOmp_with] at h'
    unfold backWith Mat.mk' at h'
    rw [if_pos ⟨by omega, by rw [G.es, G.epn]; positivity⟩, ok_bind] at h'
    have hl := bind_eq_throw (fun a => by rintro ⟨⟩) h'
    refine loop_not_throw (fun i s hin => ?_) _ hl
    have hin : i < del.nr := hin
    have hrow : (funcop del L.actfunc.actd).row (i : Nat) = .ok (Mat.of 1 del.nc (fun _ n => (funcop del L.actfunc.actd).f i n)) := by
      unfold Mat.row
      rw [if_pos ⟨by omega, by show (i : Int) < (del.nr : Int); omega⟩]
      rfl
    rw [hrow, ok_bind]
    refine loop_not_throw (fun k s hk => ?_) _
    rw [G.enf, Int.toNat_natCast] at hk
    have hle : (k + 1) * (Spec.outLen w sp 1 pd * Spec.outLen h sp 1 pd) ≤ del.nc := le_trans (Nat.mul_le_mul_right _ hk) (by rw [Nat.mul_comm (Spec.outLen w sp 1 pd)]; exact hdc)
    rw [G.eow, G.eoh, Conv.toimage_ok (by exact Nat.one_pos) (Conv.outLen_pos _ _ _ _) (Conv.outLen_pos _ _ _ _) (by exact hle), ok_bind]
    exact region_not_throw _
  · exact h'

end
end Nnet.NN
