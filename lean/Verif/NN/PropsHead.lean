import Verif.NN.PropsIsolation
import Verif.NN.PropsSoftNet
import Verif.NN.PropsSizes
/-!
# C124: the back part of a network is trained like a network of its own
-/
namespace Nnet.NN
open Finset
noncomputable section

/-! ## Specification -/

/-- What the layers `pre` make of `x`, one after the other. -/
def Spec.features (junk : Nat → Nat → ℝ) : List Nat → Store → Mat ℝ → Res (Mat ℝ)
  | [], _, x => .ok x
  | p :: ps, s, x => do
    let (r, h) ← (s p).forwardprop junk x
    Spec.features junk ps (s.put p h) r

/-- The network with the hidden layers `post` only, and the output layer and costs of `n`. -/
def Net.back (n : Net) (post : List Nat) : Net := { n with hidden := post }

/-- The batches a network shows to the layers behind `pre` while it is trained on `bs`: before each step, the features that the layers `pre` then compute, with the labels. -/
def Spec.shown (junk : Nat → Nat → ℝ) (pre : List Nat) : List (Mat ℝ × Mat ℝ) → Store → Net → Res (List (Mat ℝ × Mat ℝ))
  | [], _, _ => .ok []
  | b :: bs, s, n => do
    let r ← Spec.features junk pre s b.1
    let (s, n) ← n.gradStep junk s b.1 b.2
    let rs ← Spec.shown junk pre bs s n
    .ok ((r, b.2) :: rs)

/-- The layers `post` hold the same in both stores, and the output layers are the same. -/
def Spec.SameBack (post : List Nat) (s : Store) (n : Net) (t : Store) (m : Net) : Prop := (∀ p ∈ post, s p = t p) ∧ n.output = m.output

/-! ## Lemmas -/

theorem features_eq {junk : Nat → Nat → ℝ} : ∀ {ps : List Nat} {s : Store} {x : Mat ℝ}, Spec.features junk ps s x = (do let r ← Net.hiddenForward junk ps s x; .ok r.1)
  | [], _, _ => rfl
  | p :: ps, s, x => by
    simp only [Spec.features, Net.hiddenForward, bind_assoc]
    congr 1
    funext v
    exact features_eq

theorem relRes_ok {α β : Type} {R : α → β → Prop} {x : Res α} {y : Res β} {a : α} (h : RelRes R x y) (e : x = .ok a) : ∃ b, y = .ok b ∧ R a b := by
  cases h with
  | err _ => cases e
  | ok h => cases e; exact ⟨_, rfl, h⟩

variable {junk : Nat → Nat → ℝ} {s s' t : Store} {n n' m : Net} {pre post : List Nat} {x y r : Mat ℝ}

theorem head_forward (hn : n.hidden = pre ++ post) (hd : ∀ p ∈ post, p ∉ pre) (hm : m.hidden = post) (hs : Spec.SameBack post s n t m) (h : n.forwardprop junk s x = .ok (y, s', n')) :
    ∃ r t' m', Spec.features junk pre s x = .ok r ∧ m.forwardprop junk t r = .ok (y, t', m') ∧ Spec.SameBack post s' n' t' m' ∧ m'.hidden = post ∧ n'.hidden = n.hidden := by
  unfold Net.forwardprop at h
  simp only [InputLayer.forwardprop, hn, hiddenForward_append] at h
  obtain ⟨⟨c1, s1⟩, h1, h⟩ := bind_eq_ok h
  obtain ⟨⟨c0, s0⟩, h0, h1⟩ := bind_eq_ok h1
  obtain ⟨⟨y1, o1⟩, h2, h⟩ := bind_eq_ok h
  cases h
  have ho := outside_forward h0
  have hag : Agree post s0 t := fun p hp => (ho p (hd p hp)).trans (hs.1 p hp)
  obtain ⟨⟨c2, t1⟩, k1, k2, k3⟩ := relRes_ok (agree_forward (junk := junk) (x := c0) (fun _ h => h) hag) h1
  simp only at k2 k3
  subst k2
  refine ⟨c0, t1, { m with input := (InputLayer.forwardprop m.input c0).2, output := o1, result := y1 }, by rw [features_eq, h0]; rfl, ?_, ⟨k3, rfl⟩, hm, hn.symm ▸ rfl⟩
  unfold Net.forwardprop
  simp only [InputLayer.forwardprop, hm]
  rw [k1, ok_bind]
  simp only
  rw [← hs.2, h2]
  rfl

theorem head_backward (hn : n.hidden = pre ++ post) (hd : ∀ p ∈ post, p ∉ pre) (hm : m.hidden = post) (hs : Spec.SameBack post s n t m) (h : n.backprop junk s y = .ok (s', n')) :
    ∃ t' m', m.backprop junk t y = .ok (t', m') ∧ Spec.SameBack post s' n' t' m' ∧ m'.hidden = post ∧ n'.hidden = n.hidden := by
  unfold Net.backprop at h
  obtain ⟨⟨d, o⟩, h1, h⟩ := bind_eq_ok h
  obtain ⟨s2, h2, h⟩ := bind_eq_ok h
  cases h
  simp only [hn, List.reverse_append, hiddenBackward_append] at h2
  obtain ⟨⟨d1, s1⟩, h3, h2⟩ := bind_eq_ok h2
  have ho := outside_backward h2
  have hb : Net.hiddenBackward junk post.reverse s d = .ok s1 := by rw [hiddenBackward_eq, h3]; rfl
  obtain ⟨t1, k1, k2⟩ := relRes_ok (agree_backward (junk := junk) (x := d) (qs := post) (fun p h => List.mem_reverse.1 h) hs.1) hb
  refine ⟨t1, { m with output := o }, ?_, ⟨fun p hp => (ho p (by simpa using hd p hp)).trans (k2 p hp), rfl⟩, hm, rfl⟩
  unfold Net.backprop
  rw [← hs.2, h1, ok_bind]
  simp only [hm]
  rw [k1]
  rfl

theorem head_update (hn : n.hidden = pre ++ post) (hd : ∀ p ∈ post, p ∉ pre) (hm : m.hidden = post) (hs : Spec.SameBack post s n t m) (h : n.update s = .ok (s', n')) :
    ∃ t' m', m.update t = .ok (t', m') ∧ Spec.SameBack post s' n' t' m' ∧ m'.hidden = post ∧ n'.hidden = n.hidden := by
  unfold Net.update at h
  obtain ⟨L, h1, h⟩ := bind_eq_ok h
  obtain ⟨s2, h2, h⟩ := bind_eq_ok h
  cases h
  rw [hn, hiddenUpdate_split] at h2
  obtain ⟨s1, h3, h2⟩ := bind_eq_ok h2
  have ho := outside_update h3
  have hag : Agree post s1 t := fun p hp => (ho p (hd p hp)).trans (hs.1 p hp)
  obtain ⟨t1, k1, k2⟩ := relRes_ok (agree_update (fun _ h => h) hag) h2
  refine ⟨t1, { m with output := { m.output with toLayer := L } }, ?_, ⟨k2, by rw [hs.2]⟩, hm, rfl⟩
  unfold Net.update
  rw [← hs.2, h1, ok_bind, hm, k1]
  rfl

/-! ## Theorems -/

/-- **C124** (outputs). A network whose hidden layers are `pre`, of any kinds, and then `post`, with no layer in both, answers `x` with what the network of the hidden layers `post` answers to the features that `pre` makes of `x`. -/
theorem C124_forward (hn : n.hidden = pre ++ post) (hd : ∀ p ∈ post, p ∉ pre) (h : n.forwardprop junk s x = .ok (y, s', n')) :
    ∃ r t' m', Spec.features junk pre s x = .ok r ∧ (n.back post).forwardprop junk s r = .ok (y, t', m') ∧ Spec.SameBack post s' n' t' m' := by
  obtain ⟨r, t', m', e1, e2, e3, -⟩ := head_forward (m := n.back post) (t := s) hn hd rfl ⟨fun _ _ => rfl, rfl⟩ h
  exact ⟨r, t', m', e1, e2, e3⟩

/-- **C124** (gradients). After `forwardprop(x); backprop(y)` the layers `post` and the output layer hold the same gradients, and the same everything, as after `forwardprop(r); backprop(y)` of the network of the layers `post`,
where `r` are the features. -/
theorem C124_backward (hn : n.hidden = pre ++ post) (hd : ∀ p ∈ post, p ∉ pre) (h : (do let (_, s, n) ← n.forwardprop junk s x; n.backprop junk s y) = .ok (s', n')) :
    ∃ r t' m', Spec.features junk pre s x = .ok r ∧ (do let (_, s, n) ← (n.back post).forwardprop junk s r; n.backprop junk s y) = .ok (t', m') ∧ Spec.SameBack post s' n' t' m' := by
  obtain ⟨⟨y1, s1, n1⟩, h1, h2⟩ := bind_eq_ok h
  obtain ⟨r, t1, m1, e1, e2, e3, e4, e5⟩ := head_forward (m := n.back post) (t := s) hn hd rfl ⟨fun _ _ => rfl, rfl⟩ h1
  obtain ⟨t2, m2, f1, f2, -⟩ := head_backward (e5.trans hn) hd e4 e3 h2
  exact ⟨r, t2, m2, e1, by rw [e2, ok_bind]; exact f1, f2⟩

theorem head_step (hn : n.hidden = pre ++ post) (hd : ∀ p ∈ post, p ∉ pre) (hm : m.hidden = post) (hs : Spec.SameBack post s n t m) (h : n.gradStep junk s x y = .ok (s', n')) :
    ∃ r t' m', Spec.features junk pre s x = .ok r ∧ m.gradStep junk t r y = .ok (t', m') ∧ Spec.SameBack post s' n' t' m' ∧ m'.hidden = post ∧ n'.hidden = n.hidden := by
  unfold Net.gradStep at h
  obtain ⟨⟨y1, s1, n1⟩, h1, h⟩ := bind_eq_ok h
  obtain ⟨⟨s2, n2⟩, h2, h3⟩ := bind_eq_ok h
  simp only at h2 h3
  obtain ⟨r, t1, m1, e1, e2, e3, e4, e5⟩ := head_forward hn hd hm hs h1
  obtain ⟨t2, m2, f1, f2, f3, f4⟩ := head_backward (e5.trans hn) hd e4 e3 h2
  obtain ⟨t3, m3, g1, g2, g3, g4⟩ := head_update (f4.trans (e5.trans hn)) hd f3 f2 h3
  refine ⟨r, t3, m3, e1, ?_, g2, g3, g4.trans (f4.trans e5)⟩
  unfold Net.gradStep
  rw [e2, ok_bind]
  simp only
  rw [f1, ok_bind]
  exact g1

theorem head_steps : ∀ {bs : List (Mat ℝ × Mat ℝ)} {s s' t : Store} {n n' m : Net}, n.hidden = pre ++ post → (∀ p ∈ post, p ∉ pre) → m.hidden = post → Spec.SameBack post s n t m → n.gradSteps junk bs s = .ok (s', n') →
    ∃ rs t' m', Spec.shown junk pre bs s n = .ok rs ∧ m.gradSteps junk rs t = .ok (t', m') ∧ Spec.SameBack post s' n' t' m'
  | [], s, s', t, n, n', m, hn, hd, hm, hs, h => by
    cases h
    exact ⟨[], t, m, rfl, rfl, hs⟩
  | b :: bs, s, s', t, n, n', m, hn, hd, hm, hs, h => by
    unfold Net.gradSteps at h
    obtain ⟨⟨s1, n1⟩, h1, h2⟩ := bind_eq_ok h
    obtain ⟨r, t1, m1, e1, e2, e3, e4, e5⟩ := head_step hn hd hm hs h1
    obtain ⟨rs, t2, m2, f1, f2, f3⟩ := head_steps (e5.trans hn) hd e4 e3 h2
    refine ⟨(r, b.2) :: rs, t2, m2, ?_, ?_, f3⟩
    · unfold Spec.shown
      rw [e1, ok_bind, h1, ok_bind]
      simp only
      rw [f1]
      rfl
    · unfold Net.gradSteps
      simp only
      rw [e2, ok_bind]
      exact f2

/-- **C124** (training). After any sequence of training steps, the layers `post` and the output layer are what they would be if the network of the layers `post` had been trained on the features that the front computed
before each step. -/
theorem C124_training {bs : List (Mat ℝ × Mat ℝ)} (hn : n.hidden = pre ++ post) (hd : ∀ p ∈ post, p ∉ pre) (h : n.gradSteps junk bs s = .ok (s', n')) :
    ∃ rs t' m', Spec.shown junk pre bs s n = .ok rs ∧ (n.back post).gradSteps junk rs s = .ok (t', m') ∧ Spec.SameBack post s' n' t' m' :=
  head_steps (m := n.back post) (t := s) hn hd rfl ⟨fun _ _ => rfl, rfl⟩ h

theorem cost_back {u : Store} (hn : n.hidden = pre ++ post) (hd : ∀ p ∈ post, p ∉ pre) (hf : Spec.features junk pre s x = .ok r) (hu : ∀ p ∈ pre, s p = u p) : n.costOf junk u x y = (n.back post).costOf junk u r y := by
  rw [features_eq] at hf
  obtain ⟨⟨r', v⟩, h1, h2⟩ := bind_eq_ok hf
  cases h2
  obtain ⟨⟨r2, v2⟩, k1, k2, k3⟩ := relRes_ok (agree_forward (junk := junk) (x := x) (qs := pre) (fun _ h => h) hu) h1
  simp only at k2 k3
  subst k2
  have ho := outside_forward k1
  have hag : Agree post v2 u := fun p hp => ho p (hd p hp)
  unfold Net.costOf Net.forwardprop
  simp only [InputLayer.forwardprop, hn, hiddenForward_append, k1, ok_bind, Net.back]
  have hrel := agree_forward (junk := junk) (x := r') (qs := post) (fun _ h => h) hag
  generalize Net.hiddenForward junk post v2 r' = A at hrel
  generalize Net.hiddenForward junk post u r' = B at hrel
  cases hrel with
  | err e => rfl
  | ok h =>
    rename_i a b
    obtain ⟨a1, a2⟩ := a
    obtain ⟨b1, b2⟩ := b
    simp only at h
    obtain ⟨rfl, -⟩ := h
    simp only [ok_bind]
    cases n.output.forwardprop a1 with
    | error e => rfl
    | ok v => rfl

theorem vecAt_behind {pre post : List Nat} (l : Nat) : vecAt (pre ++ post) ((pre.length + l : Nat) : Int) = vecAt post (l : Int) := by
  unfold vecAt
  rw [if_pos (by omega), if_pos (by omega), Int.toNat_natCast, Int.toNat_natCast, List.getElem?_append_right (by omega), Nat.add_sub_cancel_left]

/-- **C124** (gradients of the whole network). If backpropagation of the network of the layers `post` on the features reports the derivatives of its cost (times `c`, plus regularisation), as C29 and its variants say of dense
layers, then backpropagation of the whole network on `x` reports, for these layers and the output layer, the derivatives of the cost of the *whole* network, whatever the layers in front are. -/
theorem C124_gradient {c : ℝ} (hn : n.hidden = pre ++ post) (hd : ∀ p ∈ post, p ∉ pre) (hf : Spec.features junk pre s x = .ok r) (hb : Spec.BackpropGives c junk s (n.back post) r y)
    (h : (do let (_, s, n) ← n.forwardprop junk s x; n.backprop junk s y) = .ok (s', n')) :
    (∀ (l : Nat) L, n.gethidden s (pre.length + l : Nat) = .ok L → ∃ L2, n'.gethidden s' (pre.length + l : Nat) = .ok L2 ∧ L2.W = L.W ∧ L2.lambda = L.lambda ∧
      ∀ i < L.W.nr, ∀ j < L.W.nc, ∃ d,
        Spec.DerivOf (fun t => do let s1 ← n.sethiddenw s (pre.length + l : Nat) (L.W.put i j t); n.costOf junk s1 x y) (L.W.f i j) d ∧
        L2.grad.f i j = c * d + L.lambda * L.W.f i j) ∧
    n'.output.W = n.output.W ∧ n'.output.lambda = n.output.lambda ∧
    ∀ i < n.output.W.nr, ∀ j < n.output.W.nc, ∃ d,
      Spec.DerivOf (fun t => (n.setoutputw (n.output.W.put i j t)).costOf junk s x y) (n.output.W.f i j) d ∧
      n'.output.grad.f i j = c * d + n.output.lambda * n.output.W.f i j := by
  obtain ⟨r', t', m', e1, e2, e3, e4⟩ := C124_backward hn hd h
  rw [hf] at e1
  cases e1
  have hh' : n'.hidden = n.hidden := by
    obtain ⟨⟨y1, s1, n1⟩, h1, h2⟩ := bind_eq_ok h
    obtain ⟨-, -, -, -, -, -, -, e5⟩ := head_forward (m := n.back post) (t := s) hn hd rfl ⟨fun _ _ => rfl, rfl⟩ h1
    obtain ⟨-, -, -, -, -, f4⟩ := head_backward (m := n1.back post) (t := s1) (e5.trans hn) hd rfl ⟨fun _ _ => rfl, rfl⟩ h2
    exact f4.trans e5
  have hm' : m'.hidden = post := by
    obtain ⟨⟨y1, s1, n1⟩, h1, h2⟩ := bind_eq_ok e2
    obtain ⟨-, -, -, -, -, -, -, e5⟩ := head_forward (pre := []) (post := post) (m := n.back post) (t := s) (n := n.back post) rfl (by simp) rfl ⟨fun _ _ => rfl, rfl⟩ h1
    obtain ⟨-, -, -, -, -, f4⟩ := head_backward (pre := []) (post := post) (m := n1.back post) (t := s1) (n := n1) (e5.trans rfl) (by simp) rfl ⟨fun _ _ => rfl, rfl⟩ h2
    exact f4.trans e5
  obtain ⟨out, s1, n1, s2, n2, g1, g2, g3, g4, g5, g6⟩ := hb
  rw [g1, ok_bind] at e2
  simp only at e2
  rw [g2] at e2
  cases e2
  refine ⟨fun l L hL => ?_, by rw [e4]; exact g4, by rw [e4]; exact g5, fun i hi j hj => ?_⟩
  · unfold Net.gethidden at hL
    rw [hn, vecAt_behind] at hL
    obtain ⟨L2, k1, k2, k3, k4⟩ := g3 l L hL
    unfold Net.gethidden at k1
    rw [hm'] at k1
    obtain ⟨p, q1, q2⟩ := bind_eq_ok k1
    have hp : p ∈ post := vecAt_mem q1
    refine ⟨L2, ?_, k2, k3, fun i hi j hj => ?_⟩
    · unfold Net.gethidden
      rw [hh', hn, vecAt_behind, q1, ok_bind, e3 p hp]
      exact q2
    · obtain ⟨d, k5, k6⟩ := k4 i hi j hj
      refine ⟨d, ?_, k6⟩
      refine Eq.mpr (congrArg (fun F => Spec.DerivOf F (L.W.f i j) d) (funext fun t => ?_)) k5
      unfold Net.sethiddenw
      rw [hn, vecAt_behind, show (n.back post).hidden = post from rfl, q1]
      simp only [ok_bind]
      exact cost_back hn hd hf (fun p' hp' => (put_other (by rintro rfl; exact hd _ hp hp')).symm)
  · obtain ⟨d, k5, k6⟩ := g6 i hi j hj
    refine ⟨d, ?_, by rw [e4]; exact k6⟩
    refine Eq.mpr (congrArg (fun F => Spec.DerivOf F (n.output.W.f i j) d) (funext fun t => ?_)) k5
    exact cost_back (n := n.setoutputw (n.output.W.put i j t)) hn hd hf (fun _ _ => rfl)

/-! ## A front that does not learn -/

/-- A dense layer whose learning rate is zero, or a softmax layer. -/
def Spec.Fixed (h : HLayer) : Prop := (h.kind = .dense ∧ h.base.lrate = 0) ∨ ∃ P, h.kind = .softmax P

/-- Both are softmax layers, or both are dense layers with learning rate zero, the same weights and the same activation. -/
def SameFront (h h' : HLayer) : Prop :=
  (h.kind = .dense ∧ h'.kind = .dense ∧ h.base.lrate = 0 ∧ h'.base.lrate = 0 ∧ h'.base.W = h.base.W ∧ h'.base.actfunc = h.base.actfunc) ∨ ((∃ P, h.kind = .softmax P) ∧ ∃ P, h'.kind = .softmax P)

theorem SameFront.fixed {h h' : HLayer} (e : SameFront h h') : Spec.Fixed h' := by
  rcases e with ⟨-, e1, -, e2, -⟩ | ⟨-, e⟩
  · exact .inl ⟨e1, e2⟩
  · exact .inr e

theorem Spec.Fixed.refl {h : HLayer} (e : Spec.Fixed h) : SameFront h h := by
  rcases e with ⟨e1, e2⟩ | e
  · exact .inl ⟨e1, e1, e2, e2, rfl, rfl⟩
  · exact .inr ⟨e, e⟩

theorem SameFront.trans {h1 h2 h3 : HLayer} (e : SameFront h1 h2) (f : SameFront h2 h3) : SameFront h1 h3 := by
  rcases e with ⟨a1, a2, a3, a4, a5, a6⟩ | ⟨a1, a2⟩
  · rcases f with ⟨b1, b2, b3, b4, b5, b6⟩ | ⟨⟨P, b1⟩, b2⟩
    · exact .inl ⟨a1, b2, a3, b4, b5.trans a5, b6.trans a6⟩
    · rw [a2] at b1; cases b1
  · rcases f with ⟨b1, b2, b3, b4, b5, b6⟩ | ⟨b1, b2⟩
    · obtain ⟨P, a2⟩ := a2
      rw [a2] at b1; cases b1
    · exact .inr ⟨a1, b2⟩

theorem fixed_forward {h h' : HLayer} (e : Spec.Fixed h) (f : h.forwardprop junk x = .ok (r, h')) : SameFront h h' := by
  obtain ⟨L, k⟩ := h
  unfold HLayer.forwardprop at f
  rcases e with ⟨e1, e2⟩ | ⟨P, e1⟩
  · simp only at e1
    subst e1
    simp only at f
    obtain ⟨⟨r1, L1⟩, f1, f⟩ := bind_eq_ok f
    cases f
    unfold Layer.forwardprop at f1
    obtain ⟨a, g1, f1⟩ := bind_eq_ok f1
    obtain ⟨b, g2, f1⟩ := bind_eq_ok f1
    cases f1
    exact .inl ⟨rfl, rfl, e2, e2, rfl, rfl⟩
  · simp only at e1
    subst e1
    simp only at f
    obtain ⟨r1, f1, f⟩ := bind_eq_ok f
    cases f
    exact .inr ⟨⟨_, rfl⟩, ⟨_, rfl⟩⟩

theorem fixed_backward {h h' : HLayer} (e : Spec.Fixed h) (f : h.backprop junk x = .ok (r, h')) : SameFront h h' := by
  obtain ⟨L, k⟩ := h
  unfold HLayer.backprop at f
  rcases e with ⟨e1, e2⟩ | ⟨P, e1⟩
  · simp only at e1
    subst e1
    simp only at f
    obtain ⟨⟨r1, L1⟩, f1, f⟩ := bind_eq_ok f
    cases f
    unfold Layer.backprop at f1
    obtain ⟨a, g1, f1⟩ := bind_eq_ok f1
    obtain ⟨b, g2, f1⟩ := bind_eq_ok f1
    obtain ⟨b3, g3, f1⟩ := bind_eq_ok f1
    obtain ⟨b4, g4, f1⟩ := bind_eq_ok f1
    obtain ⟨b5, g5, f1⟩ := bind_eq_ok f1
    cases f1
    exact .inl ⟨rfl, rfl, e2, e2, rfl, rfl⟩
  · simp only at e1
    subst e1
    simp only at f
    obtain ⟨r1, f1, f⟩ := bind_eq_ok f
    cases f
    exact .inr ⟨⟨_, rfl⟩, ⟨_, rfl⟩⟩

theorem fixed_update {h h' : HLayer} (e : Spec.Fixed h) (f : h.update = .ok h') : SameFront h h' := by
  obtain ⟨L, k⟩ := h
  unfold HLayer.update at f
  rcases e with ⟨e1, e2⟩ | ⟨P, e1⟩
  · simp only at e1 e2
    subst e1
    simp only at f
    obtain ⟨L1, f1, f⟩ := bind_eq_ok f
    cases f
    unfold Layer.update at f1
    obtain ⟨W, g1, f1⟩ := bind_eq_ok f1
    cases f1
    refine .inl ⟨rfl, rfl, e2, e2, ?_, rfl⟩
    show W = L.W
    rw [e2] at g1
    by_cases hd : L.W.nr = L.grad.nr ∧ L.W.nc = L.grad.nc
    · rw [Mat.sub_ok (by rw [Mat.smul_nr]; exact hd.1) (by rw [Mat.smul_nc]; exact hd.2)] at g1
      cases g1
      refine Mat.ext' rfl rfl fun i j hi hj => ?_
      rw [Mat.of_f' (by exact hi) (by exact hj), Mat.smul_f, zero_mul, sub_zero]
    · exfalso
      unfold Mat.sub at g1
      rw [zip_throw (by rw [Mat.smul_nr, Mat.smul_nc]; exact hd)] at g1
      cases g1
  · simp only at e1
    subst e1
    cases f
    exact .inr ⟨⟨_, rfl⟩, ⟨_, rfl⟩⟩

theorem same_forward {h h' : HLayer} (e : SameFront h h') : RelRes (fun a b => a.1 = b.1 ∧ SameFront a.2 b.2) (h.forwardprop junk x) (h'.forwardprop junk x) := by
  obtain ⟨L, k⟩ := h
  obtain ⟨L', k'⟩ := h'
  unfold HLayer.forwardprop
  rcases e with ⟨e1, e2, e3, e4, e5, e6⟩ | ⟨⟨P, e1⟩, ⟨P', e2⟩⟩
  · simp only at e1 e2 e3 e4 e5 e6
    subst e1 e2
    simp only
    unfold Layer.forwardprop
    rw [e5, e6]
    simp only [bind_assoc]
    refine RelRes.same _ fun a _ => RelRes.same _ fun b _ => .ok ⟨rfl, .inl ⟨rfl, rfl, e3, e4, rfl, rfl⟩⟩
  · simp only at e1 e2
    subst e1 e2
    simp only
    exact RelRes.same _ fun a _ => .ok ⟨rfl, .inr ⟨⟨_, rfl⟩, ⟨_, rfl⟩⟩⟩

/-- The layers `ps` compute the same in both stores. -/
def SameFronts (ps : List Nat) (s t : Store) : Prop := ∀ p ∈ ps, SameFront (s p) (t p)

theorem SameFronts.put {qs : List Nat} {s t : Store} (h : SameFronts qs s t) (p : Nat) {v w : HLayer} (e : SameFront v w) : SameFronts qs (s.put p v) (t.put p w) := by
  intro q hq
  unfold Store.put
  split
  · exact e
  · exact h q hq

theorem SameFronts.put_right {qs : List Nat} {s t : Store} (h : SameFronts qs s t) (p : Nat) {w : HLayer} (e : p ∈ qs → SameFront (s p) w) : SameFronts qs s (t.put p w) := by
  intro q hq
  unfold Store.put
  split
  · rename_i he
    subst he
    exact e hq
  · exact h q hq

theorem sameFronts_features {qs : List Nat} : ∀ {ps : List Nat} {s t : Store} {x : Mat ℝ}, (∀ p ∈ ps, p ∈ qs) → SameFronts qs s t → Spec.features junk ps s x = Spec.features junk ps t x
  | [], _, _, _, _, _ => rfl
  | p :: ps, s, t, x, hq, h => by
    unfold Spec.features
    refine RelRes.eq (RelRes.bind (same_forward (junk := junk) (x := x) (h p (hq p (by simp)))) fun a b hab => ?_)
    obtain ⟨a1, a2⟩ := a
    obtain ⟨b1, b2⟩ := b
    obtain ⟨rfl, hab⟩ := hab
    simp only
    rw [sameFronts_features (fun q hm => hq q (by simp [hm])) (h.put p hab)]
    generalize Spec.features junk ps (t.put p b2) _ = A
    cases A with
    | error e => exact .err e
    | ok v => exact .ok rfl

theorem sameFronts_forward {qs : List Nat} {s0 : Store} : ∀ {ps : List Nat} {s s' : Store} {x r : Mat ℝ}, SameFronts qs s0 s → Net.hiddenForward junk ps s x = .ok (r, s') → SameFronts qs s0 s'
  | [], _, _, _, _, h, e => by cases e; exact h
  | p :: ps, s, s', x, r, h, e => by
    unfold Net.hiddenForward at e
    obtain ⟨⟨r1, h1⟩, e1, e⟩ := bind_eq_ok e
    exact sameFronts_forward (h.put_right p fun hp => (h p hp).trans (fixed_forward (h p hp).fixed e1)) e

theorem sameFronts_backward {qs : List Nat} {s0 : Store} : ∀ {ps : List Nat} {s s' : Store} {d : Mat ℝ}, SameFronts qs s0 s → Net.hiddenBackward junk ps s d = .ok s' → SameFronts qs s0 s'
  | [], _, _, _, h, e => by cases e; exact h
  | p :: ps, s, s', x, h, e => by
    unfold Net.hiddenBackward at e
    obtain ⟨⟨r1, h1⟩, e1, e⟩ := bind_eq_ok e
    exact sameFronts_backward (h.put_right p fun hp => (h p hp).trans (fixed_backward (h p hp).fixed e1)) e

theorem sameFronts_update {qs : List Nat} {s0 : Store} : ∀ {ps : List Nat} {s s' : Store}, SameFronts qs s0 s → Net.hiddenUpdate ps s = .ok s' → SameFronts qs s0 s'
  | [], _, _, h, e => by cases e; exact h
  | p :: ps, s, s', h, e => by
    unfold Net.hiddenUpdate at e
    obtain ⟨h1, e1, e⟩ := bind_eq_ok e
    exact sameFronts_update (h.put_right p fun hp => (h p hp).trans (fixed_update (h p hp).fixed e1)) e

theorem sameFronts_step {qs : List Nat} {s0 : Store} (h : SameFronts qs s0 s) (e : n.gradStep junk s x y = .ok (s', n')) : SameFronts qs s0 s' := by
  unfold Net.gradStep Net.forwardprop Net.backprop Net.update at e
  obtain ⟨⟨y1, s1, n1⟩, e1, e⟩ := bind_eq_ok e
  obtain ⟨⟨s2, n2⟩, e2, e⟩ := bind_eq_ok e
  simp only [InputLayer.forwardprop] at e1
  obtain ⟨⟨c, t1⟩, f1, e1⟩ := bind_eq_ok e1
  obtain ⟨v, f2, e1⟩ := bind_eq_ok e1
  cases e1
  simp only at e2
  obtain ⟨v2, f3, e2⟩ := bind_eq_ok e2
  obtain ⟨t2, f4, e2⟩ := bind_eq_ok e2
  cases e2
  simp only at e
  obtain ⟨L, f5, e⟩ := bind_eq_ok e
  obtain ⟨t3, f6, e⟩ := bind_eq_ok e
  cases e
  exact sameFronts_update (sameFronts_backward (sameFronts_forward h f1) f4) f6

theorem shown_fixed {s0 : Store} : ∀ {bs : List (Mat ℝ × Mat ℝ)} {s : Store} {n : Net} {rs : List (Mat ℝ × Mat ℝ)}, SameFronts pre s0 s → Spec.shown junk pre bs s n = .ok rs →
    bs.mapM (fun b => do let r ← Spec.features junk pre s0 b.1; .ok (r, b.2)) = .ok rs
  | [], s, n, rs, h, e => by cases e; rfl
  | b :: bs, s, n, rs, h, e => by
    unfold Spec.shown at e
    obtain ⟨r, e1, e⟩ := bind_eq_ok e
    obtain ⟨⟨s1, n1⟩, e2, e⟩ := bind_eq_ok e
    obtain ⟨rs', e3, e⟩ := bind_eq_ok e
    cases e
    rw [List.mapM_cons, sameFronts_features (t := s) (fun _ h => h) h, e1, ok_bind, ok_bind, shown_fixed (sameFronts_step h e2) e3]
    rfl

/-- **C124** (transfer learning). If the layers `pre` are softmax layers and dense layers with learning rate zero, training the network is training the network of the layers `post` on the features of the samples, which can be
computed once and for all beforehand. -/
theorem C124_frozen {bs : List (Mat ℝ × Mat ℝ)} (hn : n.hidden = pre ++ post) (hd : ∀ p ∈ post, p ∉ pre) (hfix : ∀ p ∈ pre, Spec.Fixed (s p)) (h : n.gradSteps junk bs s = .ok (s', n')) :
    ∃ rs t' m', bs.mapM (fun b => do let r ← Spec.features junk pre s b.1; .ok (r, b.2)) = .ok rs ∧ (n.back post).gradSteps junk rs s = .ok (t', m') ∧ Spec.SameBack post s' n' t' m' := by
  obtain ⟨rs, t', m', e1, e2, e3⟩ := C124_training hn hd h
  exact ⟨rs, t', m', shown_fixed (fun p hp => (hfix p hp).refl) e1, e2, e3⟩

/-! ## Examples -/

theorem soft_features {a b p k q : Nat} {L : Layer} (h : Spec.SoftFront s n a b p k q) (sa : s a = ⟨L, .dense⟩) (hr : 0 < x.nr) (hc : x.nc = p) :
    Spec.features junk [a, b] s x = .ok (Spec.softmaxRows (L.fwd x).a) := by
  obtain ⟨h1, h2, ⟨L', sa', w1, w2⟩, ⟨Lb, P, sb⟩, o1, o2, hd, hp, hk⟩ := h
  rw [sa] at sa'
  cases sa'
  simp only [Spec.features, sa]
  rw [show (HLayer.mk L .dense).forwardprop junk x = .ok ((L.fwd x).a, ⟨L.fwd x, .dense⟩) by
    unfold HLayer.forwardprop
    simp only
    rw [Layer.forwardprop_ok hr (by omega) (by omega)]
    rfl]
  simp only [ok_bind]
  rw [put_other (Ne.symm h2), sb]
  rw [show (HLayer.mk Lb (.softmax P)).forwardprop junk (L.fwd x).a = .ok (Spec.softmaxRows (L.fwd x).a, ⟨Lb, .softmax (Spec.softmaxRows (L.fwd x).a)⟩) by
    unfold HLayer.forwardprop
    simp only
    rw [softmaxL_ok]
    rfl]
  rfl

/-- The hypotheses of `C124_gradient` hold of the network of C123, whose hidden layers a dense and a softmax layer are, for its output layer: the gradient reported for the output layer is that of the cost of the whole
network, although the layers in front report something else. -/
example (junk : Nat → Nat → ℝ) (v w : ℝ) : ∃ r s' n', Spec.features junk [0, 1] sfStore (Mat.of 1 1 fun _ _ => v) = .ok r ∧ Spec.BackpropGives 1 junk sfStore (sfNet.back []) r (Mat.of 1 1 fun _ _ => w) ∧
    (do let (_, s, n) ← sfNet.forwardprop junk sfStore (Mat.of 1 1 fun _ _ => v); n.backprop junk s (Mat.of 1 1 fun _ _ => w)) = .ok (s', n') := by
  obtain ⟨s', n', e, -⟩ := C123_runs (junk := junk) (x := Mat.of 1 1 fun _ _ => v) (y := Mat.of 1 1 fun _ _ => w) sf_front Nat.one_pos rfl rfl rfl
  unfold Net.gradStep at e
  obtain ⟨⟨y1, s1, n1⟩, h1, e⟩ := bind_eq_ok e
  obtain ⟨⟨s2, n2⟩, h2, -⟩ := bind_eq_ok e
  refine ⟨_, s2, n2, soft_features sf_front rfl Nat.one_pos rfl, ?_, by rw [h1, ok_bind]; exact h2⟩
  exact C29_quadratic (p := 2) (q := 1) ⟨List.nodup_nil, fun _ h => absurd h List.not_mem_nil, Nat.two_pos, ⟨rfl, Nat.one_pos, rfl⟩⟩ Nat.one_pos rfl rfl rfl trivial rfl rfl rfl

/-- The hypotheses of `C124_frozen` hold of the same network with learning rate zero in its first layer, for every number of steps. -/
example (junk : Nat → Nat → ℝ) (v w : ℝ) (t : Nat) : ∃ s s' n', (∀ p ∈ ([0, 1] : List Nat), Spec.Fixed (s p)) ∧ sfNet.gradSteps junk (List.replicate t (Mat.of 1 1 fun _ _ => v, Mat.of 1 1 fun _ _ => w)) s = .ok (s', n') := by
  have hrun : ∀ (t : ℕ) (s : Store) (n : Net), Spec.SoftFront s n 0 1 1 2 1 → ∃ s' n', n.gradSteps junk (List.replicate t (Mat.of 1 1 fun _ _ => v, Mat.of 1 1 fun _ _ => w)) s = .ok (s', n') := by
    intro t
    induction t with
    | zero => intro s n h; exact ⟨s, n, rfl⟩
    | succ t ih =>
      intro s n h
      obtain ⟨s1, n1, e1, e2⟩ := C123_runs (junk := junk) (x := Mat.of 1 1 fun _ _ => v) (y := Mat.of 1 1 fun _ _ => w) h Nat.one_pos rfl rfl rfl
      obtain ⟨s2, n2, e3⟩ := ih s1 n1 e2
      refine ⟨s2, n2, ?_⟩
      rw [List.replicate_succ]
      unfold Net.gradSteps
      rw [e1, ok_bind]
      exact e3
  obtain ⟨s', n', e⟩ := hrun t (fun i => if i = 0 then ⟨{ exLayer Act.identity (Mat.of 2 2 (fun _ _ => 0)) with lrate := 0 }, .dense⟩ else ⟨exLayer Act.identity .empty, .softmax .empty⟩) sfNet
    ⟨rfl, by omega, ⟨_, rfl, rfl, rfl⟩, ⟨_, _, rfl⟩, rfl, rfl, C54_costs.1, by omega, by omega⟩
  refine ⟨_, s', n', fun p hp => ?_, e⟩
  rcases List.mem_cons.1 hp with rfl | hp
  · exact .inl ⟨rfl, rfl⟩
  · obtain rfl : p = 1 := by simpa using hp
    exact .inr ⟨_, rfl⟩

end
end Nnet.NN
