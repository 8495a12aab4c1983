import Verif.NN.PropsConv
import Verif.NN.PropsShare
/-!
# C51, C52: the backward pass of the pooling layers

A pooling layer that is followed by the output layer and preceded by a dense layer is the smallest network in which the layer's backward pass matters.
-/
namespace Nnet.NN
open Finset
noncomputable section

/-- What reaches the last hidden layer in a successful backward pass of the output layer has as many columns as that layer's output. -/
theorem output_delta_dims {o o1 o2 : OutputLayer} {a r y d : Mat ℝ} (h1 : o.forwardprop a = .ok (r, o1)) (h2 : o1.backprop y = .ok (d, o2)) :
    d.nr = a.nr ∧ d.nc = a.nc := by
  unfold OutputLayer.forwardprop at h1
  obtain ⟨⟨r', L⟩, h3, h1⟩ := bind_eq_ok h1
  unfold Layer.forwardprop at h3
  obtain ⟨pa, g1, h3⟩ := bind_eq_ok h3
  obtain ⟨z, g2, h3⟩ := bind_eq_ok h3
  cases h3
  cases h1
  obtain ⟨hr, hc⟩ := addcol_eq_ok g1
  rw [addcol_ok hr hc] at g1
  cases g1
  unfold OutputLayer.backprop at h2
  obtain ⟨D, k1, h2⟩ := bind_eq_ok h2
  obtain ⟨gr, k2, h2⟩ := bind_eq_ok h2
  obtain ⟨gr2, k3, h2⟩ := bind_eq_ok h2
  obtain ⟨nd, k4, h2⟩ := bind_eq_ok h2
  obtain ⟨nd2, k5, h2⟩ := bind_eq_ok h2
  cases h2
  obtain ⟨a1, a2, a3⟩ := mul_eq_ok k2
  obtain ⟨b1, b2, b3⟩ := mul_eq_ok k4
  obtain ⟨c1, c2, c3⟩ := mul_eq_ok g2
  unfold Mat.shedCol0 at k5
  split at k5
  · cases k5
    have e1 : D.nr = a.nr := a1.symm
    have e2 : a.nc + 1 = o.W.nr := c1
    refine ⟨?_, ?_⟩
    · show nd.nr = a.nr
      rw [b2, e1]
    · show nd.nc - 1 = a.nc
      rw [b3]
      show o.W.nr - 1 = a.nc
      omega
  · cases k5

theorem hiddenForward_append {junk : Nat → Nat → ℝ} (bs : List Nat) : ∀ (as : List Nat) (s : Store) (x : Mat ℝ),
    Net.hiddenForward junk (as ++ bs) s x = (do let (r, s) ← Net.hiddenForward junk as s x; Net.hiddenForward junk bs s r)
  | [], s, x => rfl
  | a :: as, s, x => by
    simp only [List.cons_append, Net.hiddenForward]
    cases h : (s a).forwardprop junk x with
    | error e => rfl
    | ok v => simp only [ok_bind]; exact hiddenForward_append bs as _ _

/-- After a forward pass through a dense layer the layer remembers pre-activations of the size of its output. -/
theorem dense_forward_dims {L L' : Layer} {x r : Mat ℝ} (h : L.forwardprop x = .ok (r, L')) :
    0 < x.nr ∧ r.nr = x.nr ∧ r.nc = L.W.nc ∧ L'.z.nr = x.nr ∧ L'.z.nc = L.W.nc := by
  unfold Layer.forwardprop at h
  obtain ⟨pa, g1, h⟩ := bind_eq_ok h
  obtain ⟨z, g2, h⟩ := bind_eq_ok h
  cases h
  obtain ⟨hr, hc⟩ := addcol_eq_ok g1
  rw [addcol_ok hr hc] at g1
  cases g1
  obtain ⟨a1, a2, a3⟩ := mul_eq_ok g2
  exact ⟨hr, a2, a3, a2, a3⟩

/-- A dense layer rejects a delta that does not have the size of its output. -/
theorem dense_backprop_throw {L : Layer} {d : Mat ℝ} (h : ¬ (d.nr = L.z.nr ∧ d.nc = L.z.nc)) : L.backprop d = .error .throw := by
  unfold Layer.backprop Mat.schur Mat.zip funcop
  rw [if_neg (by simpa using h)]
  rfl

/-- The output row of a pooling layer never has more entries than its input row, and has fewer as soon as the window is larger than one pixel. -/
theorem pool_shrinks {h w sp st : Nat} (hsp : 2 ≤ sp) (fh : sp ≤ h) (fw : sp ≤ w) : Spec.outLen h sp st 0 * Spec.outLen w sp st 0 < w * h := by
  have h1 : Spec.outLen h sp st 0 < h := by unfold Spec.outLen; have := Nat.div_le_self (h + 2 * 0 - sp) st; omega
  have h2 : Spec.outLen w sp st 0 ≤ w := by unfold Spec.outLen; have := Nat.div_le_self (w + 2 * 0 - sp) st; omega
  calc Spec.outLen h sp st 0 * Spec.outLen w sp st 0 ≤ Spec.outLen h sp st 0 * w := Nat.mul_le_mul_left _ h2
    _ < h * w := Nat.mul_lt_mul_of_pos_right h1 (by omega)
    _ = w * h := Nat.mul_comm _ _

/-- **C51, backward.** Max pooling with a window larger than one pixel: for every geometry and batch, a delta of the size of the layer's output goes
back as a matrix that is narrower than the layer's input, so it cannot be the derivative with respect to the input. -/
theorem C51_backward (junk : Nat → Nat → ℝ) {L : Layer} {c : Conv} {ix x : Mat ℝ} {h w nf sp st : Nat} (G : c.Geo h w nf nf sp st 0) (hsp : 2 ≤ sp)
    (hm : 0 < x.nr) (hc : x.nc = nf * (w * h)) :
    ∃ y h1, (HLayer.mk L (.maxpool c ix)).forwardprop junk x = .ok (y, h1) ∧
      ∀ d, d.nr = y.nr → d.nc = y.nc → ∃ r h2, h1.backprop junk d = .ok (r, h2) ∧ r = d ∧ r.nc < x.nc := by
  obtain ⟨A, idx, hA, hf⟩ := MaxPool.forward_ok (L := L) junk G hm (by omega) rfl rfl rfl
  refine ⟨_, _, by unfold HLayer.forwardprop; simp only; rw [hf, ok_bind], fun d hd1 hd2 => ⟨d, _, rfl, rfl, ?_⟩⟩
  rw [hd2, hA, hc]
  show Spec.outLen h sp st 0 * Spec.outLen w sp st 0 * nf < nf * (w * h)
  rw [Nat.mul_comm nf]
  have := G.fh
  have := G.fw
  exact Nat.mul_lt_mul_of_pos_right (pool_shrinks hsp (by omega) (by omega)) G.hnf

/-- No network in which a dense layer feeds a max pooling layer with a window larger than one pixel, and that layer the output layer, can be trained:
whatever the layers before, the data and the labels, backprop after a successful forwardprop fails. -/
theorem C51_training_refuted {junk : Nat → Nat → ℝ} {s s1 : Store} {n n1 : Net} {pre : List Nat} {a b : Nat} {L Lb : Layer} {c : Conv} {ix x r : Mat ℝ}
    {h w nf sp st : Nat} (hn : n.hidden = pre ++ [a, b]) (hab : a ≠ b) (ha : a ∉ pre) (hb : b ∉ pre) (sa : s a = ⟨L, .dense⟩) (sb : s b = ⟨Lb, .maxpool c ix⟩)
    (G : c.Geo h w nf nf sp st 0) (hsp : 2 ≤ sp) (hW : L.W.nc = nf * (w * h)) (hf : n.forwardprop junk s x = .ok (r, s1, n1)) (y : Mat ℝ) :
    ∃ e, n1.backprop junk s1 y = .error e := by
  unfold Net.forwardprop at hf
  simp only [InputLayer.forwardprop, hn, hiddenForward_append] at hf
  obtain ⟨⟨cur, t⟩, h1, hf⟩ := bind_eq_ok hf
  obtain ⟨⟨cur0, t0⟩, h0, h1⟩ := bind_eq_ok h1
  obtain ⟨⟨res, o1⟩, h2, hf⟩ := bind_eq_ok hf
  cases hf
  have ho := outside_forward h0
  simp only [Net.hiddenForward] at h1
  rw [ho a ha, sa] at h1
  obtain ⟨⟨v1, g1⟩, k1, h1⟩ := bind_eq_ok h1
  simp only at h1
  rw [put_other (Ne.symm hab), ho b hb, sb] at h1
  obtain ⟨⟨v2, g2⟩, k2, h1⟩ := bind_eq_ok h1
  cases h1
  unfold HLayer.forwardprop at k1
  simp only at k1
  obtain ⟨⟨v1', L1⟩, k3, k1⟩ := bind_eq_ok k1
  cases k1
  obtain ⟨hr, d1, d2, d3, d4⟩ := dense_forward_dims k3
  obtain ⟨y2, h3, e1, e2⟩ := C51_backward (L := Lb) (ix := ix) (x := v1') junk G hsp (by omega) (by rw [d2, hW])
  rw [e1] at k2
  cases k2
  cases hbp : o1.backprop y with
  | error e => exact ⟨e, by unfold Net.backprop; simp only [hbp, error_bind]⟩
  | ok v =>
    obtain ⟨d, o2⟩ := v
    obtain ⟨m1, m2⟩ := output_delta_dims h2 hbp
    obtain ⟨q, h4, e3, e4, e5⟩ := e2 d m1 m2
    refine ⟨.throw, ?_⟩
    unfold Net.backprop
    simp only [hbp, ok_bind, hn, List.reverse_append, List.reverse_cons, List.reverse_nil, List.nil_append, List.cons_append, Net.hiddenBackward, put_same, e3]
    rw [put_other hab, put_other hab, put_same]
    unfold HLayer.backprop
    simp only
    rw [dense_backprop_throw (by rw [d4]; rw [d2] at e5; omega)]
    rfl

/-- **C52, backward.** Mean pooling passes an empty matrix back whatever the incoming delta, so it never is the derivative with respect to the (non-empty)
input, and a network in which a dense layer feeds it can never be trained. -/
theorem C52_backward {junk : Nat → Nat → ℝ} {s s1 : Store} {n n1 : Net} {pre : List Nat} {a b : Nat} {L Lb : Layer} {c : Conv} {x r : Mat ℝ}
    (hn : n.hidden = pre ++ [a, b]) (hab : a ≠ b) (ha : a ∉ pre) (hb : b ∉ pre) (sa : s a = ⟨L, .dense⟩) (sb : s b = ⟨Lb, .meanpool c⟩)
    (hf : n.forwardprop junk s x = .ok (r, s1, n1)) :
    (∀ d, ∃ q h2, (s1 b).backprop junk d = .ok (q, h2) ∧ q.nr = 0 ∧ q.nc = 0) ∧ ∀ y, ∃ e, n1.backprop junk s1 y = .error e := by
  unfold Net.forwardprop at hf
  simp only [InputLayer.forwardprop, hn, hiddenForward_append] at hf
  obtain ⟨⟨cur, t⟩, h1, hf⟩ := bind_eq_ok hf
  obtain ⟨⟨cur0, t0⟩, h0, h1⟩ := bind_eq_ok h1
  obtain ⟨⟨res, o1⟩, h2, hf⟩ := bind_eq_ok hf
  cases hf
  have ho := outside_forward h0
  simp only [Net.hiddenForward] at h1
  rw [ho a ha, sa] at h1
  obtain ⟨⟨v1, g1⟩, k1, h1⟩ := bind_eq_ok h1
  simp only at h1
  rw [put_other (Ne.symm hab), ho b hb, sb] at h1
  obtain ⟨⟨v2, g2⟩, k2, h1⟩ := bind_eq_ok h1
  cases h1
  unfold HLayer.forwardprop at k1 k2
  simp only at k1 k2
  obtain ⟨⟨v1', L1⟩, k3, k1⟩ := bind_eq_ok k1
  cases k1
  obtain ⟨⟨v2', L2, c2⟩, k4, k2⟩ := bind_eq_ok k2
  cases k2
  obtain ⟨hr, d1, d2, d3, d4⟩ := dense_forward_dims k3
  refine ⟨fun d => ⟨Mat.empty, ⟨L2, .meanpool c2⟩, by simp only [put_same]; rfl, rfl, rfl⟩, fun y => ?_⟩
  cases hbp : o1.backprop y with
  | error e => exact ⟨e, by unfold Net.backprop; simp only [hbp, error_bind]⟩
  | ok v =>
    obtain ⟨d, o2⟩ := v
    refine ⟨.throw, ?_⟩
    unfold Net.backprop
    simp only [hbp, ok_bind, hn, List.reverse_append, List.reverse_cons, List.reverse_nil, List.nil_append, List.cons_append, Net.hiddenBackward, put_same]
    rw [show (HLayer.mk L2 (.meanpool c2)).backprop junk d = .ok (Mat.empty, ⟨L2, .meanpool c2⟩) from rfl, ok_bind]
    simp only
    rw [put_other hab, put_other hab, put_same]
    unfold HLayer.backprop
    simp only
    rw [dense_backprop_throw (by rw [d3]; show ¬ (0 = _ ∧ _); omega)]
    rfl

/-- A network that meets the hypotheses: 1 input, a dense layer of 4 units that form a `2 x 2` image, max pooling with a `2 x 2` window, 1 output. -/
example (junk : Nat → Nat → ℝ) : ∃ (s s1 : Store) (n n1 : Net) (L Lb : Layer) (c : Conv) (ix x r : Mat ℝ), n.hidden = [] ++ [0, 1] ∧ s 0 = ⟨L, .dense⟩ ∧
    s 1 = ⟨Lb, .maxpool c ix⟩ ∧ c.Geo 2 2 1 1 2 1 0 ∧ L.W.nc = 1 * (2 * 2) ∧ n.forwardprop junk s x = .ok (r, s1, n1) := by
  obtain ⟨Lb, c, h1, G, _, _, h5⟩ := C47_constructor (fun _ _ => 0) junk (h := 2) (w := 2) (pn := 1) (nf := 1) (sp := 2) (st := 1) (pd := 0) 0
    Act.identity (by norm_num) (by norm_num) (by norm_num) (by norm_num) (by norm_num) (by norm_num) (by norm_num) (by norm_num) (by norm_num) (by norm_num)
  let L := exLayer Act.identity (Mat.of 2 4 (fun _ _ => (1 : ℝ)))
  let s : Store := fun k => if k = 0 then ⟨L, .dense⟩ else ⟨Lb, .maxpool c .empty⟩
  let n : Net := { linNet with hidden := [0, 1] }
  obtain ⟨A, idx, hA, hf⟩ := MaxPool.forward_ok (L := Lb) (pa := (L.fwd linX).a) junk G (by show 0 < 1; omega) (by show 1 * (2 * 2) ≤ 4; omega) rfl rfl rfl
  have e1 : L.forwardprop linX = .ok ((L.fwd linX).a, L.fwd linX) := Layer.forwardprop_ok (by show 0 < 1; omega) (by show 0 < 1; omega) rfl
  have e2 : n.output.forwardprop (funcop A Lb.actfunc.act) = .ok (_, _) :=
    OutputLayer.forwardprop_ok (o := n.output) (by rw [hA]; show 0 < 1; omega) (by rw [hA]; show 0 < Spec.outLen 2 2 1 0 * Spec.outLen 2 2 1 0 * 1; decide)
      (by rw [hA]; show 2 = Spec.outLen 2 2 1 0 * Spec.outLen 2 2 1 0 * 1 + 1; decide)
  suffices h : ∃ r s1 n1, n.forwardprop junk s linX = .ok (r, s1, n1) by
    obtain ⟨r, s1, n1, h⟩ := h
    exact ⟨s, s1, n, n1, L, Lb, c, .empty, linX, r, rfl, rfl, rfl, G, rfl, h⟩
  unfold Net.forwardprop
  simp only [InputLayer.forwardprop, show n.hidden = [0, 1] from rfl, Net.hiddenForward]
  rw [show s 0 = ⟨L, .dense⟩ from rfl]
  rw [show (HLayer.mk L .dense).forwardprop junk linX = .ok ((L.fwd linX).a, ⟨L.fwd linX, .dense⟩) by unfold HLayer.forwardprop; simp only; rw [e1, ok_bind], ok_bind]
  simp only
  rw [put_other (by omega), show s 1 = ⟨Lb, .maxpool c .empty⟩ from rfl]
  unfold HLayer.forwardprop
  simp only
  rw [hf, ok_bind, ok_bind, ok_bind]
  simp only
  rw [e2, ok_bind]
  exact ⟨_, _, _, rfl⟩

end
end Nnet.NN
