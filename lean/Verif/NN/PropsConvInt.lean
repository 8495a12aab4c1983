import Verif.NN.ConvInt
import Verif.NN.ConvLemmas2
import Verif.NN.PropsGrad
/-!
# C105: 32-bit sizes of convolution and pooling layers
-/
namespace Nnet.NN
open Finset
noncomputable section

/-- What the constructor of a convolution layer computes in `int` fits: sizes of the weight matrix, of a picture, and of an output map. `2^31 - 1` is the largest `int`. -/
structure Spec.ConvMakes (h w pn nf sp st pd : Nat) : Prop where
  rows : sp * pn < 2 ^ 31
  cols : sp * nf < 2 ^ 31
  picture : w * h < 2 ^ 31
  pad : 2 * pd < 2 ^ 31
  wide : w + 2 * pd - sp < 2 ^ 31
  high : h + 2 * pd - sp < 2 ^ 31
  map : Spec.outLen w sp st pd * Spec.outLen h sp st pd < 2 ^ 31

/-- What the forward pass computes in `int` fits: the weight matrix, a row of the input, a row of the output. -/
structure Spec.ConvRuns (h w pn nf sp st pd : Nat) : Prop where
  rows : sp * pn < 2 ^ 31
  cols : sp * nf < 2 ^ 31
  input : w * h * pn < 2 ^ 31
  output : Spec.outLen w sp st pd * Spec.outLen h sp st pd * nf < 2 ^ 31
  stride : st < 2 ^ 31

namespace ConvInt

theorem ci {n : Int} {m : Nat} (e : n = m) (h : m < 2 ^ 31) : cint n = .ok n := by
  unfold cint
  rw [if_pos]
  unfold IsInt intMax intMin
  omega

theorem ci_bad {n : Int} {m : Nat} (e : n = m) (h : ¬ m < 2 ^ 31) : cint n = .error (.ub .signedOverflow) := by
  unfold cint
  rw [if_neg]
  unfold IsInt intMax intMin
  omega

theorem loop_same {σ : Type _} {n : Nat} {b1 b2 : Nat → σ → Res σ} {s : σ} (P : σ → Prop) (h0 : P s)
    (h : ∀ i s, i < n → P s → b1 i s = b2 i s ∧ ∀ s', b2 i s = .ok s' → P s') : loop n b1 s = loop n b2 s ∧ ∀ s', loop n b2 s = .ok s' → P s' := by
  induction n with
  | zero => exact ⟨rfl, fun s' e => by cases e; exact h0⟩
  | succ n ih =>
    obtain ⟨e, hp⟩ := ih (fun i s hi => h i s (by omega))
    unfold loop
    rw [e]
    cases hc : loop n b2 s with
    | error e => exact ⟨rfl, fun s' e => by cases e⟩
    | ok t => exact h n t (by omega) (hp t hc)

theorem bind_same {α β : Type _} {m1 m2 : Res α} {f1 f2 : α → Res β} (e : m1 = m2) (h : ∀ a, m2 = .ok a → f1 a = f2 a) : (m1 >>= f1) = (m2 >>= f2) := by
  subst e
  cases hm : m1 with
  | error e => rfl
  | ok a => exact h a hm

theorem block_eq {k size : Nat} (hs : 0 < size) (h : (k + 1) * size < 2 ^ 31) : block k size = .ok ((k : Int) * size, ((k : Int) + 1) * size - 1) := by
  have h1 : k + 1 ≤ (k + 1) * size := Nat.le_mul_of_pos_right _ hs
  have h2 : k * size + size = (k + 1) * size := by ring
  unfold block
  rw [ci (m := k * size) (by push_cast; rfl) (by omega), ok_bind, ci (m := k + 1) (by push_cast; rfl) (by omega), ok_bind, ci (m := (k + 1) * size) (by push_cast; rfl) h, ok_bind,
    ci (m := (k + 1) * size - 1) (by rw [Nat.cast_sub (by omega)]; push_cast; rfl) (by omega), ok_bind]

theorem toimage_eq {pa : Mat ℝ} {j w h : Nat} (hh : 0 < h) (hw : 0 < w) (hf : (j + 1) * (w * h) < 2 ^ 31) : toimage pa j w h = Conv.toimage pa j w h := by
  have hwh : 0 < w * h := Nat.mul_pos hw hh
  have h1 : 1 * (w * h) ≤ (j + 1) * (w * h) := Nat.mul_le_mul_right _ (by omega)
  unfold toimage Conv.toimage
  rw [ci (m := w * h) (by push_cast; rfl) (by omega), ok_bind]
  have e : ((w : Int) * h) = ((w * h : Nat) : Int) := by push_cast; rfl
  rw [e, block_eq hwh hf, ok_bind]

theorem spatialBlock_eq {W : Mat ℝ} {sp j k : Nat} (h0 : 0 < sp) (h1 : (j + 1) * sp < 2 ^ 31) (h2 : (k + 1) * sp < 2 ^ 31) : spatialBlock sp W j k = Conv.spatialBlock sp W j k := by
  unfold spatialBlock Conv.spatialBlock
  rw [block_eq h0 h1, ok_bind]
  dsimp only
  rw [block_eq h0 h2, ok_bind]

theorem addRowBlock_eq {m v : Mat ℝ} {i : Int} {k size : Nat} (hs : 0 < size) (h : (k + 1) * size < 2 ^ 31) : addRowBlock m i k size v = Conv.addRowBlock m i k size v := by
  unfold addRowBlock Conv.addRowBlock
  rw [block_eq hs h, ok_bind]

theorem stepLoop_eq {σ : Type _} {n st : Nat} {b1 b2 : Int → σ → Res σ} {s : σ} (hst : 0 < st) (h : n - 1 + st < 2 ^ 31) (hb : ∀ i s, i < n → b1 (i : Nat) s = b2 (i : Nat) s) :
    stepLoop n st b1 s = Conv.stepLoop n st b2 s := by
  unfold stepLoop Conv.stepLoop
  refine (loop_same (fun _ => True) trivial fun t s ht _ => ⟨?_, fun _ _ => trivial⟩).1
  rw [Int.toNat_natCast] at ht
  have hlt := Conv.ceil_mul_le hst ht
  rw [hb _ _ hlt, ci (m := t * st + st) (by push_cast; rfl) (by omega)]
  cases b2 (t * st : Nat) s <;> rfl

theorem step_fits {xn yn st : Nat} (hst : 0 < st) (bs : st < 2 ^ 31) (h3 : 0 < yn) (h1 : yn ≤ xn) (h2 : xn < 2 ^ 31) : ((xn - yn) / st + 1) - 1 + st < 2 ^ 31 := by
  rw [Nat.add_sub_cancel]
  have h : (xn - yn) / st * st ≤ xn - yn := Nat.div_mul_le_self _ _
  rcases Nat.eq_zero_or_pos ((xn - yn) / st) with e | e
  · omega
  · obtain ⟨a, ha⟩ := Nat.exists_eq_succ_of_ne_zero e.ne'
    obtain ⟨b, hb⟩ := Nat.exists_eq_succ_of_ne_zero hst.ne'
    rw [ha] at h ⊢
    rw [hb] at h ⊢
    have : a.succ * b.succ = a * b + a + b + 1 := by rw [Nat.succ_eq_add_one, Nat.succ_eq_add_one]; ring
    rw [this] at h
    have := Nat.zero_le (a * b)
    omega

theorem cell_fits {i j oh ow : Nat} (hi : i < oh) (hj : j < ow) : i * ow + j < ow * oh := by
  have h1 : (i + 1) * ow ≤ oh * ow := Nat.mul_le_mul_right _ hi
  have h2 : (i + 1) * ow = i * ow + ow := by ring
  have h3 : oh * ow = ow * oh := Nat.mul_comm _ _
  omega

theorem convolve_eq (junk : Nat → Nat → ℝ) {st : Nat} (hst : 0 < st) (bs : st < 2 ^ 31) {x y : Mat ℝ} (hy1 : 0 < y.nr) (hy2 : 0 < y.nc) (h1 : y.nr ≤ x.nr) (h2 : y.nc ≤ x.nc)
    (b1 : x.nr < 2 ^ 31) (b2 : x.nc < 2 ^ 31) (hf : ((x.nc - y.nc) / st + 1) * ((x.nr - y.nr) / st + 1) < 2 ^ 31) : convolve junk st x y = Conv.convolve junk st x y := by
  unfold convolve Conv.convolve
  rw [if_neg (by omega), if_neg (by omega), if_neg (by omega), if_neg (by omega), Int.toNat_natCast]
  dsimp only
  rw [outDim_ok h2 b2 hy2, outDim_ok h1 b1 hy1, ci (m := ((x.nc - y.nc) / st + 1) * ((x.nr - y.nr) / st + 1)) (by push_cast; rfl) hf, ok_bind]
  refine bind_same rfl fun o _ => ?_
  refine stepLoop_eq hst (step_fits hst bs hy1 h1 b1) fun i s hi => stepLoop_eq hst (step_fits hst bs hy2 h2 b2) fun j s hj => ?_
  refine bind_same rfl fun win _ => bind_same rfl fun result _ => ?_
  have := cell_fits hi hj
  rw [ci (m := i * ((x.nc - y.nc) / st + 1)) (by push_cast; rfl) (by omega), ok_bind, ci (m := i * ((x.nc - y.nc) / st + 1) + j) (by push_cast; rfl) (by omega), ok_bind]

theorem maxpool_eq {sp st : Nat} (hsp : 0 < sp) (hst : 0 < st) {x : Mat ℝ} (h1 : sp ≤ x.nr) (h2 : sp ≤ x.nc)
    (b1 : x.nr < 2 ^ 31) (b2 : x.nc < 2 ^ 31) (hf : ((x.nc - sp) / st + 1) * ((x.nr - sp) / st + 1) * 2 < 2 ^ 31) : maxpool sp st x = MaxPool.maxpool sp st x := by
  unfold maxpool MaxPool.maxpool
  rw [if_neg (by omega), if_neg (by omega), if_neg (by omega), if_neg (by omega), Int.toNat_natCast, Int.toNat_natCast]
  dsimp only
  rw [outDim_ok h2 b2 hsp, outDim_ok h1 b1 hsp, ci (m := ((x.nc - sp) / st + 1) * ((x.nr - sp) / st + 1)) (by push_cast; rfl) (by omega), ok_bind]
  refine bind_same rfl fun o _ => ?_
  rw [ok_bind, ci (m := ((x.nc - sp) / st + 1) * ((x.nr - sp) / st + 1) * 2) (by push_cast; rfl) hf, ok_bind]
  refine bind_same rfl fun ix _ => ?_
  refine (loop_same (fun _ => True) trivial fun i s hi _ => ⟨(loop_same (fun _ => True) trivial fun j s hj _ => ⟨?_, fun _ _ => trivial⟩).1, fun _ _ => trivial⟩).1
  rw [Int.toNat_natCast] at hi hj
  have c := cell_fits hi hj
  have d1 := Nat.div_le_self (x.nr - sp) st
  have d2 := Nat.div_le_self (x.nc - sp) st
  dsimp only
  rw [ci (m := i + sp) (by push_cast; rfl) (by omega), ok_bind, ci (m := i + sp - 1) (by omega) (by omega), ok_bind, ci (m := j + sp) (by push_cast; rfl) (by omega), ok_bind,
    ci (m := j + sp - 1) (by omega) (by omega), ok_bind]
  refine bind_same rfl fun sub _ => bind_same rfl fun v _ => ?_
  have e1 : cint ((i : Int) * (((x.nc - sp) / st + 1 : Nat) : Int)) = .ok ((i : Int) * (((x.nc - sp) / st + 1 : Nat) : Int)) := ci (m := i * ((x.nc - sp) / st + 1)) (by push_cast; rfl) (by omega)
  have e2 : cint ((i : Int) * (((x.nc - sp) / st + 1 : Nat) : Int) + j) = .ok ((i : Int) * (((x.nc - sp) / st + 1 : Nat) : Int) + j) :=
    ci (m := i * ((x.nc - sp) / st + 1) + j) (by push_cast; rfl) (by omega)
  have e3 : cint ((i : Int) * (((x.nc - sp) / st + 1 : Nat) : Int) * 2) = .ok ((i : Int) * (((x.nc - sp) / st + 1 : Nat) : Int) * 2) :=
    ci (m := i * ((x.nc - sp) / st + 1) * 2) (by push_cast; rfl) (by omega)
  have e4 : cint ((i : Int) * (((x.nc - sp) / st + 1 : Nat) : Int) * 2 + j) = .ok ((i : Int) * (((x.nc - sp) / st + 1 : Nat) : Int) * 2 + j) :=
    ci (m := i * ((x.nc - sp) / st + 1) * 2 + j) (by push_cast; rfl) (by omega)
  have e5 : cint ((i : Int) * (((x.nc - sp) / st + 1 : Nat) : Int) * 2 + j + 1) = .ok ((i : Int) * (((x.nc - sp) / st + 1 : Nat) : Int) * 2 + j + 1) :=
    ci (m := i * ((x.nc - sp) / st + 1) * 2 + j + 1) (by push_cast; rfl) (by omega)
  rw [e1, ok_bind, e2, ok_bind]
  refine bind_same rfl fun o _ => ?_
  rw [ok_bind, e3, ok_bind, e4, ok_bind]
  refine bind_same rfl fun ix _ => ?_
  rw [ok_bind, e3, ok_bind, e4, ok_bind, e5, ok_bind]

theorem meanpool_eq {sp st : Nat} (hsp : 0 < sp) (hst : 0 < st) {x : Mat ℝ} (h1 : sp ≤ x.nr) (h2 : sp ≤ x.nc)
    (b1 : x.nr < 2 ^ 31) (b2 : x.nc < 2 ^ 31) (hf : ((x.nc - sp) / st + 1) * ((x.nr - sp) / st + 1) < 2 ^ 31) : meanpool sp st x = MeanPool.meanpool sp st x := by
  unfold meanpool MeanPool.meanpool
  rw [if_neg (by omega), if_neg (by omega), if_neg (by omega), if_neg (by omega), Int.toNat_natCast, Int.toNat_natCast]
  dsimp only
  rw [outDim_ok h2 b2 hsp, outDim_ok h1 b1 hsp, ci (m := ((x.nc - sp) / st + 1) * ((x.nr - sp) / st + 1)) (by push_cast; rfl) (by omega), ok_bind]
  refine bind_same rfl fun o _ => ?_
  refine (loop_same (fun _ => True) trivial fun i s hi _ => ⟨(loop_same (fun _ => True) trivial fun j s hj _ => ⟨?_, fun _ _ => trivial⟩).1, fun _ _ => trivial⟩).1
  rw [Int.toNat_natCast] at hi hj
  have c := cell_fits hi hj
  have d1 := Nat.div_le_self (x.nr - sp) st
  have d2 := Nat.div_le_self (x.nc - sp) st
  dsimp only
  rw [ci (m := i + sp) (by push_cast; rfl) (by omega), ok_bind, ci (m := i + sp - 1) (by omega) (by omega), ok_bind, ci (m := j + sp) (by push_cast; rfl) (by omega), ok_bind,
    ci (m := j + sp - 1) (by omega) (by omega), ok_bind]
  refine bind_same rfl fun sub _ => bind_same rfl fun v _ => ?_
  rw [ci (m := i * ((x.nc - sp) / st + 1)) (by push_cast; rfl) (by omega), ok_bind, ci (m := i * ((x.nc - sp) / st + 1) + j) (by push_cast; rfl) (by omega), ok_bind]

/-- All pictures of a list have `a` rows and `b` columns. -/
def Sized (a b : Nat) (l : List (Mat ℝ)) : Prop := ∀ m ∈ l, m.nr = a ∧ m.nc = b

theorem setSlice_sized {a b i : Nat} {l l' : List (Mat ℝ)} {x : Mat ℝ} (h : Sized a b l) (e : Conv.setSlice l i x = .ok l') : Sized a b l' := by
  unfold Conv.setSlice at e
  cases hl : l[i]? with
  | none => rw [hl] at e; cases e
  | some old =>
    rw [hl] at e
    dsimp only at e
    split at e
    · rename_i hd
      cases e
      intro m hm
      rcases List.mem_or_eq_of_mem_set hm with hm | rfl
      · exact h m hm
      · have := h old (List.mem_of_getElem? hl)
        exact ⟨hd.1.symm.trans this.1, hd.2.symm.trans this.2⟩
    · cases e

theorem getSlice_sized {a b i : Nat} {l : List (Mat ℝ)} {x : Mat ℝ} (h : Sized a b l) (e : Conv.getSlice l i = .ok x) : x.nr = a ∧ x.nc = b := by
  unfold Conv.getSlice at e
  cases hl : l[i]? with
  | none => rw [hl] at e; cases e
  | some old =>
    rw [hl] at e
    cases e
    exact h x (List.mem_of_getElem? hl)

theorem newImages_eq (junk : Nat → Nat → ℝ) {c : Conv} {h w pn nf sp st pd : Nat} (G : c.Geo h w pn nf sp st pd) (n : Nat) :
    newImages junk c n = Conv.newImages junk c n ∧ ∀ l, Conv.newImages junk c n = .ok l → Sized (h + 2 * pd) (w + 2 * pd) l := by
  have bh := G.bh
  have bw := G.bw
  unfold newImages Conv.newImages
  rw [G.eh, G.ew, G.epd, ci (m := 2 * pd) (by push_cast; rfl) (by omega), ok_bind, ci (m := h + 2 * pd) (by push_cast; rfl) (by omega), ok_bind, ok_bind,
    ci (m := w + 2 * pd) (by push_cast; rfl) (by omega), ok_bind]
  refine ⟨rfl, fun l e => ?_⟩
  obtain ⟨m, h1, h2⟩ := bind_eq_ok e
  cases h2
  unfold Mat.mk' at h1
  rw [if_pos (by omega)] at h1
  cases h1
  intro m hm
  rw [List.eq_of_mem_replicate hm]
  exact ⟨show ((h : Int) + 2 * pd).toNat = h + 2 * pd by omega, show ((w : Int) + 2 * pd).toNat = w + 2 * pd by omega⟩

theorem channelLoops_eq {σ : Type _} (junk : Nat → Nat → ℝ) {c : Conv} {h w pn nf sp st pd : Nat} (G : c.Geo h w pn nf sp st pd) (F : Spec.ConvRuns h w pn nf sp st pd) (pa : Mat ℝ)
    {extra1 : Res σ} {extra : σ} (he : extra1 = .ok extra) {step1 step2 : (i : Nat) → (j : Nat) → (k : Nat) → Mat ℝ → σ → Res (Mat ℝ × σ)}
    (hs : ∀ i j k image e, j < pn → k < nf → image.nr = h + 2 * pd → image.nc = w + 2 * pd → step1 i j k image e = step2 i j k image e) :
    channelLoops junk c pa extra1 step1 = Conv.channelLoops junk c pa extra step2 := by
  subst he
  have hos : 0 < Spec.outLen w sp st pd * Spec.outLen h sp st pd := Nat.mul_pos (Conv.outLen_pos _ _ _ _) (Conv.outLen_pos _ _ _ _)
  obtain ⟨i1, i2⟩ := newImages_eq junk G pa.nr
  unfold channelLoops Conv.channelLoops
  rw [G.eos, G.enf, ci (m := Spec.outLen w sp st pd * Spec.outLen h sp st pd * nf) (by push_cast; rfl) F.output, ok_bind]
  refine bind_same rfl fun a _ => bind_same i1 fun images hi => ?_
  rw [ok_bind]
  refine (loop_same (fun s : Mat ℝ × List (Mat ℝ) × σ => Sized (h + 2 * pd) (w + 2 * pd) s.2.1) (i2 images hi) fun i s _ hP => ?_).1
  cases hrow : pa.row (i : Int) with
  | error e => exact ⟨rfl, fun s' e => by cases e⟩
  | ok sample =>
    rw [ok_bind, ok_bind, G.epn, Int.toNat_natCast, Int.toNat_natCast, G.ew, G.eh]
    refine loop_same (fun s : Mat ℝ × List (Mat ℝ) × σ => Sized (h + 2 * pd) (w + 2 * pd) s.2.1) hP fun j s hj hP => ?_
    dsimp only
    have hin : (j + 1) * (w * h) < 2 ^ 31 := by
      have h1 : (j + 1) * (w * h) ≤ pn * (w * h) := Nat.mul_le_mul_right _ hj
      have h2 : pn * (w * h) = w * h * pn := Nat.mul_comm _ _
      have h3 := F.input
      omega
    rw [toimage_eq G.hh G.hw hin]
    cases him : Conv.toimage pa (j : Int) (w : Int) (h : Int) with
    | error e => exact ⟨rfl, fun s' e => by cases e⟩
    | ok img =>
      rw [ok_bind, ok_bind]
      cases hpad : Conv.addzeropadding c.padding img with
      | error e => exact ⟨rfl, fun s' e => by cases e⟩
      | ok padded =>
        rw [ok_bind, ok_bind]
        cases hset : Conv.setSlice s.2.1 i padded with
        | error e => exact ⟨rfl, fun s' e => by cases e⟩
        | ok images =>
          rw [ok_bind, ok_bind]
          refine loop_same (fun s : Mat ℝ × List (Mat ℝ) × σ => Sized (h + 2 * pd) (w + 2 * pd) s.2.1) (setSlice_sized hP hset) fun k s hk hP => ?_
          cases hg : Conv.getSlice s.2.1 i with
          | error e => exact ⟨rfl, fun s' e => by cases e⟩
          | ok image =>
            obtain ⟨z1, z2⟩ := getSlice_sized hP hg
            rw [ok_bind, ok_bind, hs i j k image s.2.2 hj hk z1 z2]
            cases hst : step2 i j k image s.2.2 with
            | error e => exact ⟨rfl, fun s' e => by cases e⟩
            | ok pe =>
              have hout : (k + 1) * (Spec.outLen w sp st pd * Spec.outLen h sp st pd) < 2 ^ 31 := by
                have h1 : (k + 1) * (Spec.outLen w sp st pd * Spec.outLen h sp st pd) ≤ nf * (Spec.outLen w sp st pd * Spec.outLen h sp st pd) := Nat.mul_le_mul_right _ hk
                have h2 := Nat.mul_comm nf (Spec.outLen w sp st pd * Spec.outLen h sp st pd)
                have h3 := F.output
                omega
              rw [ok_bind, ok_bind]
              rw [addRowBlock_eq hos hout]
              refine ⟨rfl, fun s' e => ?_⟩
              obtain ⟨m, -, h2⟩ := bind_eq_ok e
              cases h2
              exact hP

theorem outLen_mul_two {h w nf sp st pd : Nat} (h2 : Spec.outLen w sp st pd * Spec.outLen h sp st pd * nf < 2 ^ 31) (hnf : 0 < nf) : Spec.outLen w sp st pd * Spec.outLen h sp st pd < 2 ^ 31 :=
  lt_of_le_of_lt (Nat.le_mul_of_pos_right _ hnf) h2

end ConvInt

open ConvInt

theorem ConvInt.kernel_sized {W K : Mat ℝ} {sp j k : Nat} (hK : Conv.spatialBlock sp W j k = .ok K) : K.nr = sp ∧ K.nc = sp := by
  unfold Conv.spatialBlock Mat.submat at hK
  split at hK
  · cases hK
    have b1 : ((j : Int) + 1) * sp - 1 - j * sp + 1 = sp := by ring
    have b2 : ((k : Int) + 1) * sp - 1 - k * sp + 1 = sp := by ring
    constructor
    · show Int.toNat _ = _; rw [b1]; rfl
    · show Int.toNat _ = _; rw [b2]; rfl
  · cases hK

/-! ## C105 -/

/-- **C105** (constructor). For every legal geometry with `int` arguments, the constructor of the 32-bit program makes the layer of the idealised one exactly if the listed products fit into an `int`;
otherwise its behaviour is undefined. -/
theorem C105_constructor (dist : Draws) (junk : Nat → Nat → ℝ) {h w pn nf sp st pd : Nat} (lrate : ℝ) (act : ActFunc ℝ)
    (hpn : 0 < pn) (hsp : 0 < sp) (hst : 0 < st) (fh : sp ≤ h + 2 * pd) (fw : sp ≤ w + 2 * pd) (ih : h < 2 ^ 31) (iw : w < 2 ^ 31) (isp : sp < 2 ^ 31) :
    (Spec.ConvMakes h w pn nf sp st pd → ConvInt.new dist junk w h pn nf sp st pd lrate act = Conv.new dist junk w h pn nf sp st pd lrate act) ∧
    (¬ Spec.ConvMakes h w pn nf sp st pd → ConvInt.new dist junk w h pn nf sp st pd lrate act = .error (.ub .signedOverflow)) := by
  have hp : 0 < sp * pn := Nat.mul_pos hsp hpn
  have low : ∀ a b : Nat, a < 2 ^ 31 → b < 2 ^ 31 → cint ((a : Int) - b) = .ok ((a : Int) - b) := by
    intro a b ha hb
    unfold cint
    rw [if_pos (by unfold IsInt intMax intMin; omega)]
  have lw : ((w : Int) - sp + 2 * pd) = ((w + 2 * pd - sp : Nat) : Int) := by omega
  have lh : ((h : Int) - sp + 2 * pd) = ((h + 2 * pd - sp : Nat) : Int) := by omega
  have tw : ((w + 2 * pd - sp : Nat) : Int).tdiv st = (((w + 2 * pd - sp) / st : Nat) : Int) := by
    rw [Int.tdiv_eq_ediv_of_nonneg (by omega)]; push_cast; rfl
  have th : ((h + 2 * pd - sp : Nat) : Int).tdiv st = (((h + 2 * pd - sp) / st : Nat) : Int) := by
    rw [Int.tdiv_eq_ediv_of_nonneg (by omega)]; push_cast; rfl
  have dw := Nat.div_le_self (w + 2 * pd - sp) st
  have dh := Nat.div_le_self (h + 2 * pd - sp) st
  have e1 : ((sp : Int) * pn - 1 + 1) = ((sp * pn : Nat) : Int) := by push_cast; ring
  have e2 : ((sp : Int) * nf) = ((sp * nf : Nat) : Int) := by push_cast; ring
  have pw : Spec.outLen w sp st pd ≤ Spec.outLen w sp st pd * Spec.outLen h sp st pd := Nat.le_mul_of_pos_right _ (Conv.outLen_pos _ _ _ _)
  have ph : Spec.outLen h sp st pd ≤ Spec.outLen w sp st pd * Spec.outLen h sp st pd := Nat.le_mul_of_pos_left _ (Conv.outLen_pos _ _ _ _)
  have makes : ∃ L : Layer, ∃ L' : Layer, Layer.new dist junk ((sp : Int) * pn - 1) ((sp : Int) * nf) lrate 0 act = .ok L ∧
      L.randominit dist (Real.sqrt (((sp : Int) * pn : Int) : ℝ)) = .ok L' := by
    unfold Layer.new Layer.newDev Mat.mk'
    rw [e1, e2, if_pos (by omega), ok_bind, ok_bind, randominit_ok]
    exact ⟨_, _, rfl, randominit_ok _ _ _⟩
  obtain ⟨L, L', m1, m2⟩ := makes
  unfold ConvInt.new Conv.new cdiv
  by_cases c1 : sp * pn < 2 ^ 31
  swap
  · exact ⟨fun H => absurd H.rows c1, fun _ => by rw [ci_bad (m := sp * pn) (by push_cast; rfl) c1]; rfl⟩
  rw [ci (m := sp * pn) (by push_cast; rfl) c1, ok_bind, ci (m := sp * pn - 1) (by rw [Nat.cast_sub (by omega)]; push_cast; rfl) (by omega), ok_bind]
  by_cases c2 : sp * nf < 2 ^ 31
  swap
  · exact ⟨fun H => absurd H.cols c2, fun _ => by rw [ci_bad (m := sp * nf) (by push_cast; rfl) c2]; rfl⟩
  rw [ci (m := sp * nf) (by push_cast; rfl) c2, ok_bind, ci (m := sp * pn) e1 c1, ok_bind, m1, ok_bind, ok_bind, m2]
  by_cases c3 : w * h < 2 ^ 31
  swap
  · exact ⟨fun H => absurd H.picture c3, fun _ => by rw [ci_bad (m := w * h) (by push_cast; rfl) c3]; rfl⟩
  rw [ci (m := w * h) (by push_cast; rfl) c3, ok_bind, ok_bind, ok_bind, if_neg (by omega), low w sp iw isp, ok_bind]
  by_cases c4 : 2 * pd < 2 ^ 31
  swap
  · exact ⟨fun H => absurd H.pad c4, fun _ => by rw [ci_bad (m := 2 * pd) (by push_cast; rfl) c4]; rfl⟩
  rw [ci (m := 2 * pd) (by push_cast; rfl) c4, ok_bind]
  by_cases c5 : w + 2 * pd - sp < 2 ^ 31
  swap
  · exact ⟨fun H => absurd H.wide c5, fun _ => by rw [ci_bad (m := w + 2 * pd - sp) lw c5]; rfl⟩
  rw [ci (m := w + 2 * pd - sp) lw c5, ok_bind, if_neg (by omega), lw, tw, ci (m := (w + 2 * pd - sp) / st) rfl (by omega), ok_bind]
  by_cases c6 : Spec.outLen w sp st pd < 2 ^ 31
  swap
  · exact ⟨fun H => absurd (lt_of_le_of_lt pw H.map) c6, fun _ => by rw [ci_bad (m := Spec.outLen w sp st pd) (by unfold Spec.outLen; push_cast; rfl) c6]; rfl⟩
  rw [ci (m := Spec.outLen w sp st pd) (by unfold Spec.outLen; push_cast; rfl) c6, ok_bind, low h sp ih isp, ok_bind, ok_bind]
  by_cases c7 : h + 2 * pd - sp < 2 ^ 31
  swap
  · exact ⟨fun H => absurd H.high c7, fun _ => by rw [ci_bad (m := h + 2 * pd - sp) lh c7]; rfl⟩
  rw [ci (m := h + 2 * pd - sp) lh c7, ok_bind, if_neg (by omega), lh, th, ci (m := (h + 2 * pd - sp) / st) rfl (by omega), ok_bind]
  by_cases c8 : Spec.outLen h sp st pd < 2 ^ 31
  swap
  · exact ⟨fun H => absurd (lt_of_le_of_lt ph H.map) c8, fun _ => by rw [ci_bad (m := Spec.outLen h sp st pd) (by unfold Spec.outLen; push_cast; rfl) c8]; rfl⟩
  rw [ci (m := Spec.outLen h sp st pd) (by unfold Spec.outLen; push_cast; rfl) c8, ok_bind]
  by_cases c9 : Spec.outLen w sp st pd * Spec.outLen h sp st pd < 2 ^ 31
  swap
  · exact ⟨fun H => absurd H.map c9, fun _ => by rw [ci_bad (m := Spec.outLen w sp st pd * Spec.outLen h sp st pd) (by unfold Spec.outLen; push_cast; rfl) c9]; rfl⟩
  rw [ci (m := Spec.outLen w sp st pd * Spec.outLen h sp st pd) (by unfold Spec.outLen; push_cast; rfl) c9, ok_bind]
  exact ⟨fun _ => rfl, fun H => absurd ⟨c1, c2, c3, c4, c5, c7, c9⟩ H⟩

/-- **C105** (convolution). Whenever the sizes of the weight matrix and of one row of the input and of the output fit into an `int`, no index computation of the forward pass overflows, for any input and weights:
the 32-bit program does what the idealised one does (so C47, C48 and C101 hold of it). -/
theorem C105_forward (junk : Nat → Nat → ℝ) (L : Layer) {c : Conv} {h w pn nf sp st pd : Nat} (G : c.Geo h w pn nf sp st pd) (F : Spec.ConvRuns h w pn nf sp st pd) (x : Mat ℝ) :
    ConvInt.forwardprop junk L c x = Conv.forwardprop junk L c x := by
  unfold ConvInt.forwardprop Conv.forwardprop
  refine bind_same (channelLoops_eq junk G F x rfl fun i j k image e hj hk z1 z2 => ?_) fun _ _ => rfl
  have a1 : (j + 1) * sp < 2 ^ 31 := by
    have h1 : (j + 1) * sp ≤ pn * sp := Nat.mul_le_mul_right _ hj
    have h2 := Nat.mul_comm pn sp
    have h3 := F.rows
    omega
  have a2 : (k + 1) * sp < 2 ^ 31 := by
    have h1 : (k + 1) * sp ≤ nf * sp := Nat.mul_le_mul_right _ hk
    have h2 := Nat.mul_comm nf sp
    have h3 := F.cols
    omega
  rw [G.esp, spatialBlock_eq G.hsp a1 a2]
  refine bind_same rfl fun K hK => bind_same ?_ fun _ _ => rfl
  obtain ⟨k1, k2⟩ := kernel_sized hK
  rw [G.est]
  refine convolve_eq junk G.hst F.stride (by rw [k1]; exact G.hsp) (by rw [k2]; exact G.hsp) (by rw [k1, z1]; exact G.fh) (by rw [k2, z2]; exact G.fw) (by rw [z1]; exact G.bh) (by rw [z2]; exact G.bw) ?_
  rw [k1, k2, z1, z2]
  exact outLen_mul_two F.output G.hnf

/-- **C105** (max pooling). The same for max pooling, which stores two numbers for every position of an output map. -/
theorem C105_maxpool (junk : Nat → Nat → ℝ) (L : Layer) {c : Conv} {h w nf sp st : Nat} (G : c.Geo h w nf nf sp st 0) (F : Spec.ConvRuns h w nf nf sp st 0)
    (F2 : Spec.outLen w sp st 0 * Spec.outLen h sp st 0 * 2 < 2 ^ 31) (x : Mat ℝ) : ConvInt.maxForwardprop junk L c x = MaxPool.forwardprop junk L c x := by
  unfold ConvInt.maxForwardprop MaxPool.forwardprop
  have e1 : cint (c.outputsize * 2) = .ok (c.outputsize * 2) := by rw [G.eos]; exact ci (m := Spec.outLen w sp st 0 * Spec.outLen h sp st 0 * 2) (by push_cast; rfl) F2
  have hos : 0 < Spec.outLen w sp st 0 * Spec.outLen h sp st 0 := Nat.mul_pos (Conv.outLen_pos _ _ _ _) (Conv.outLen_pos _ _ _ _)
  have e2 : cint (c.outputsize * 2 - 1) = .ok (c.outputsize * 2 - 1) := by
    rw [G.eos]; exact ci (m := Spec.outLen w sp st 0 * Spec.outLen h sp st 0 * 2 - 1) (by rw [Nat.cast_sub (by omega)]; push_cast; rfl) (by omega)
  have e3 : Mat.mk' junk x.nr (c.outputsize * 2) = .ok (Mat.of x.nr (c.outputsize * 2).toNat junk) := by
    unfold Mat.mk'
    rw [if_pos ⟨by omega, by rw [G.eos]; omega⟩]
    rfl
  rw [e1, ok_bind, e3, ok_bind]
  refine bind_same (channelLoops_eq junk G F x rfl fun i j k image e hj hk z1 z2 => ?_) fun _ _ => rfl
  rw [G.esp, G.est, maxpool_eq G.hsp G.hst (by rw [z1]; exact G.fh) (by rw [z2]; exact G.fw) (by rw [z1]; exact G.bh) (by rw [z2]; exact G.bw) (by rw [z1, z2]; exact F2)]
  refine bind_same rfl fun o _ => ?_
  dsimp only
  rw [ok_bind, e2, ok_bind]

/-- **C105** (mean pooling). The same for mean pooling. -/
theorem C105_meanpool (junk : Nat → Nat → ℝ) (L : Layer) {c : Conv} {h w nf sp st : Nat} (G : c.Geo h w nf nf sp st 0) (F : Spec.ConvRuns h w nf nf sp st 0) (x : Mat ℝ) :
    ConvInt.meanForwardprop junk L c x = MeanPool.forwardprop junk L c x := by
  unfold ConvInt.meanForwardprop MeanPool.forwardprop
  refine bind_same (channelLoops_eq junk G F x rfl fun i j k image e hj hk z1 z2 => ?_) fun _ _ => rfl
  rw [G.esp, G.est, meanpool_eq G.hsp G.hst (by rw [z1]; exact G.fh) (by rw [z2]; exact G.fw) (by rw [z1]; exact G.bh) (by rw [z2]; exact G.bw) (by rw [z1, z2]; exact outLen_mul_two F.output G.hnf)]

/-- **C105** (backward pass). The same for the backward pass of layers whose output maps are as large as the pictures (only those can be trained, C49), if also the square of the window fits. -/
theorem C105_backward (junk : Nat → Nat → ℝ) (L : Layer) {c : Conv} {h w pn nf sp pd : Nat} (G : c.Geo h w pn nf sp 1 pd) (hsame : sp = 2 * pd + 1) (F : Spec.ConvRuns h w pn nf sp 1 pd)
    (F2 : sp * sp < 2 ^ 31) (hi : ∀ m ∈ c.images, m.nr = h + 2 * pd ∧ m.nc = w + 2 * pd) (del : Mat ℝ) : ConvInt.backprop junk L c del = Conv.backprop junk L c del := by
  have oh : Spec.outLen h sp 1 pd = h := by unfold Spec.outLen; rw [Nat.div_one]; have := G.hh; omega
  have ow : Spec.outLen w sp 1 pd = w := by unfold Spec.outLen; rw [Nat.div_one]; have := G.hw; omega
  have Fo := F.output
  rw [oh, ow] at Fo
  have hwh : 0 < w * h := Nat.mul_pos G.hw G.hh
  have fit : ∀ {a n : Nat} (b : Nat), a < n → b * n < 2 ^ 31 → (a + 1) * b < 2 ^ 31 := by
    intro a n b ha hb
    have h1 : (a + 1) * b ≤ n * b := Nat.mul_le_mul_right _ ha
    have h2 := Nat.mul_comm n b
    omega
  unfold ConvInt.backprop Conv.backprop
  rw [G.es, G.epn, ci (m := w * h * pn) (by push_cast; rfl) F.input, ok_bind]
  refine bind_same rfl fun delta _ => bind_same ?_ fun _ _ => rfl
  refine (loop_same (fun _ => True) trivial fun i s _ _ => ⟨?_, fun _ _ => trivial⟩).1
  refine bind_same rfl fun deltay _ => ?_
  refine (loop_same (fun _ => True) trivial fun k s hk _ => ⟨?_, fun _ _ => trivial⟩).1
  rw [G.enf, Int.toNat_natCast] at hk
  rw [G.eow, G.eoh, oh, ow, toimage_eq G.hh G.hw (fit _ hk Fo)]
  refine bind_same rfl fun dimg hd => ?_
  obtain ⟨g, rfl⟩ : ∃ g, dimg = Mat.of h w g := by
    unfold Conv.toimage at hd
    obtain ⟨img, -, h2⟩ := bind_eq_ok hd
    rw [if_pos (by omega), Int.toNat_natCast, Int.toNat_natCast] at h2
    cases h2
    exact ⟨_, rfl⟩
  refine (loop_same (fun _ => True) trivial fun j s hj _ => ⟨?_, fun _ _ => trivial⟩).1
  rw [Int.toNat_natCast] at hj
  have a1 := fit _ hj F.rows
  have a2 := fit _ hk F.cols
  refine bind_same rfl fun image him => ?_
  obtain ⟨z1, z2⟩ := getSlice_sized hi him
  have b1 := G.bh
  have b2 := G.bw
  have hsq : (2 * pd + 1) * (2 * pd + 1) < 2 ^ 31 := by rw [← hsame]; exact F2
  rw [G.est, G.esp, G.epd]
  refine bind_same (convolve_eq (st := 1) junk (by omega) (by norm_num) (by exact G.hh) (by exact G.hw) (by rw [z1]; show h ≤ _; omega) (by rw [z2]; show w ≤ _; omega) (by omega) (by omega) ?_)
    fun pg _ => bind_same rfl fun pg _ => ?_
  · rw [z1, z2, Nat.div_one, Nat.div_one]
    show (w + 2 * pd - w + 1) * (h + 2 * pd - h + 1) < _
    rw [Nat.add_sub_cancel_left, Nat.add_sub_cancel_left]
    exact hsq
  rw [block_eq G.hsp a1, ok_bind]
  dsimp only
  rw [block_eq G.hsp a2, ok_bind]
  dsimp only
  refine bind_same rfl fun grad _ => bind_same rfl fun paddimg hp => bind_same ?_ fun kernel hK => ?_
  · unfold ConvInt.flip Conv.flip
    rw [spatialBlock_eq G.hsp a1 a2]
  rw [Conv.addzeropadding_ok] at hp
  cases hp
  obtain ⟨k1, k2⟩ : kernel.nr = sp ∧ kernel.nc = sp := by
    unfold Conv.flip at hK
    obtain ⟨K, q1, q2⟩ := bind_eq_ok hK
    cases q2
    have := kernel_sized q1
    exact ⟨this.1, this.2⟩
  refine bind_same (convolve_eq (st := 1) junk (by omega) (by norm_num) (by rw [k1]; exact G.hsp) (by rw [k2]; exact G.hsp) (by rw [k1]; exact G.fh) (by rw [k2]; exact G.fw) (by exact b1) (by exact b2) ?_)
    fun pdl _ => ?_
  · rw [k1, k2]
    show Spec.outLen w sp 1 pd * Spec.outLen h sp 1 pd < _
    rw [oh, ow]
    exact lt_of_le_of_lt (Nat.le_mul_of_pos_right _ G.hpn) F.input
  rw [addRowBlock_eq hwh (fit _ hj F.input)]

/-- **C105** (the bound on the output is needed). If one row of the output does not fit into an `int`, the forward pass is undefined for every input, even an empty one. -/
theorem C105_overflow (junk : Nat → Nat → ℝ) (L : Layer) {c : Conv} {h w pn nf sp st pd : Nat} (G : c.Geo h w pn nf sp st pd)
    (hf : ¬ Spec.outLen w sp st pd * Spec.outLen h sp st pd * nf < 2 ^ 31) (x : Mat ℝ) : ConvInt.forwardprop junk L c x = .error (.ub .signedOverflow) := by
  unfold ConvInt.forwardprop ConvInt.channelLoops
  rw [G.eos, G.enf, ci_bad (m := Spec.outLen w sp st pd * Spec.outLen h sp st pd * nf) (by push_cast; rfl) hf]
  rfl

/-- Full statement refuted: a layer that the constructor accepts without overflow can be run. Pictures of 30000 x 30000 pixels and three filters: the constructor succeeds, every forward pass is undefined. -/
theorem C105_accepted_refuted (dist : Draws) (junk : Nat → Nat → ℝ) : ∃ L c, ConvInt.new dist junk 30000 30000 1 3 1 1 0 0 Act.identity = .ok (L, c) ∧
    ∀ x, ConvInt.forwardprop junk L c x = .error (.ub .signedOverflow) := by
  obtain ⟨L, c, h1, h2, -⟩ := Conv.new_geo dist junk (h := 30000) (w := 30000) (pn := 1) (nf := 3) (sp := 1) (st := 1) (pd := 0) 0 Act.identity (by norm_num) (by norm_num) (by norm_num) (by norm_num)
    (by norm_num) (by norm_num) (by norm_num) (by norm_num) (by norm_num) (by norm_num)
  refine ⟨L, c, ?_, fun x => C105_overflow junk L h2 (by unfold Spec.outLen; norm_num) x⟩
  rw [← h1]
  exact (C105_constructor dist junk (h := 30000) (w := 30000) (pn := 1) (nf := 3) (sp := 1) (st := 1) (pd := 0) 0 Act.identity (by norm_num) (by norm_num) (by norm_num) (by norm_num)
    (by norm_num) (by norm_num) (by norm_num) (by norm_num)).1 ⟨by norm_num, by norm_num, by norm_num, by norm_num, by norm_num, by norm_num, by unfold Spec.outLen; norm_num⟩

/-- The hypotheses can be met: colour pictures of 640 x 480 pixels, 64 filters of 3 x 3. -/
example : Spec.ConvMakes 480 640 3 64 3 1 1 ∧ Spec.ConvRuns 480 640 3 64 3 1 1 := by
  refine ⟨⟨?_, ?_, ?_, ?_, ?_, ?_, ?_⟩, ⟨?_, ?_, ?_, ?_, ?_⟩⟩ <;> norm_num [Spec.outLen]

/-- The same filters on pictures of 7000 x 7000 pixels: the layer can be made, but not run. -/
example : Spec.ConvMakes 7000 7000 3 64 3 1 1 ∧ ¬ Spec.ConvRuns 7000 7000 3 64 3 1 1 := by
  refine ⟨⟨?_, ?_, ?_, ?_, ?_, ?_, ?_⟩, fun h => absurd h.output ?_⟩ <;> norm_num [Spec.outLen]

end
end Nnet.NN
