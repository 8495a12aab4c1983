import Verif.NN.PropsSoftNet
import Verif.NN.PropsSizes
/-!
# C125: sizes in networks of dense, normalising and softmax layers
-/
namespace Nnet.NN
open Finset
noncomputable section

namespace Spec

/-- A dense, normalising or softmax layer. -/
def Simple : Kind → Prop
  | .dense => True
  | .norm _ => True
  | .softmax _ => True
  | _ => False

/-- The weights of the dense layers among the layers `ids`, in order. -/
def denseWeights (s : Store) : List Nat → List (Mat ℝ)
  | [] => []
  | id :: ids =>
    match (s id).kind with
    | .dense => (s id).base.W :: denseWeights s ids
    | _ => denseWeights s ids

/-- The sizes of `x` and of the layers of `n` fit: there is a sample, and the dense layers, with the output layer last, chain behind the width of `x`. The other layers do not count. -/
def FitsInput (s : Store) (n : Net) (x : Mat ℝ) : Prop := 0 < x.nr ∧ Chains x.nc (denseWeights s n.hidden ++ [n.output.W])

/-- Two layers of the same class whose weights have the same size. -/
def SameShape (g h : HLayer) : Prop :=
  h.base.W.nr = g.base.W.nr ∧ h.base.W.nc = g.base.W.nc ∧
    match g.kind, h.kind with
    | .dense, .dense => True
    | .norm _, .norm _ => True
    | .softmax _, .softmax _ => True
    | _, _ => False

end Spec

theorem alike_refl {g : HLayer} (h : Spec.Simple g.kind) : Spec.SameShape g g := by
  obtain ⟨b, k⟩ := g
  refine ⟨rfl, rfl, ?_⟩
  cases k <;> first | trivial | exact h

theorem alike_trans {a b c : HLayer} (h : Spec.SameShape a b) (h' : Spec.SameShape b c) : Spec.SameShape a c := by
  obtain ⟨a, ka⟩ := a
  obtain ⟨b, kb⟩ := b
  obtain ⟨c, kc⟩ := c
  obtain ⟨h1, h2, h3⟩ := h
  obtain ⟨g1, g2, g3⟩ := h'
  refine ⟨g1.trans h1, g2.trans h2, ?_⟩
  cases ka <;> cases kb <;> first | exact h3.elim | (cases kc <;> first | trivial | exact g3)

theorem alike_simple {a b : HLayer} (h : Spec.SameShape a b) : Spec.Simple b.kind := by
  obtain ⟨a, ka⟩ := a
  obtain ⟨b, kb⟩ := b
  obtain ⟨-, -, h3⟩ := h
  cases ka <;> cases kb <;> first | trivial | exact h3

theorem alike_dense {a b : HLayer} (h : Spec.SameShape a b) : b.kind = .dense ↔ a.kind = .dense := by
  obtain ⟨a, ka⟩ := a
  obtain ⟨b, kb⟩ := b
  obtain ⟨-, -, h3⟩ := h
  cases ka <;> cases kb <;> first | exact h3.elim | simp

theorem chains_dims : ∀ {Ws Vs : List (Mat ℝ)} {p : Nat}, List.Forall₂ (fun W V => V.nr = W.nr ∧ V.nc = W.nc) Ws Vs → (Spec.Chains p Vs ↔ Spec.Chains p Ws)
  | _, _, _, .nil => Iff.rfl
  | _, _, _, .cons h hs => by
    unfold Spec.Chains
    rw [h.1, h.2, chains_dims hs]

theorem weights_alike {s t : Store} : ∀ {ids : List Nat}, (∀ id ∈ ids, Spec.SameShape (s id) (t id)) → List.Forall₂ (fun W V => V.nr = W.nr ∧ V.nc = W.nc) (Spec.denseWeights s ids) (Spec.denseWeights t ids)
  | [], _ => .nil
  | id :: ids, h => by
    have h1 := h id (by simp)
    have ih := weights_alike (s := s) (t := t) (ids := ids) fun i hi => h i (by simp [hi])
    obtain ⟨a, b, c⟩ := h1
    unfold Spec.denseWeights
    cases e1 : (s id).kind <;> cases e2 : (t id).kind <;> rw [e1, e2] at c <;> first | exact c.elim | exact ih | exact .cons ⟨a, b⟩ ih

theorem weights_congr {s t : Store} : ∀ {ids : List Nat}, (∀ id ∈ ids, t id = s id) → Spec.denseWeights t ids = Spec.denseWeights s ids
  | [], _ => rfl
  | id :: ids, h => by
    unfold Spec.denseWeights
    rw [h id (by simp), weights_congr fun i hi => h i (by simp [hi])]

theorem fitsInput_alike {s t : Store} {n m : Net} (hh : m.hidden = n.hidden) (ha : ∀ id ∈ n.hidden, Spec.SameShape (s id) (t id)) (h1 : m.output.W.nr = n.output.W.nr) (h2 : m.output.W.nc = n.output.W.nc) (x : Mat ℝ) :
    Spec.FitsInput t m x ↔ Spec.FitsInput s n x := by
  unfold Spec.FitsInput
  rw [hh, chains_dims (List.rel_append (weights_alike ha) (.cons ⟨h1, h2⟩ .nil))]

/-- The forward loop. -/
theorem mixed_forward {junk : Nat → Nat → ℝ} {W : Mat ℝ} : ∀ {ids : List Nat} {s : Store} {x : Mat ℝ}, ids.Nodup → (∀ id ∈ ids, Spec.Simple (s id).kind) →
    (0 < x.nr ∧ Spec.Chains x.nc (Spec.denseWeights s ids ++ [W]) → ∃ r t, Net.hiddenForward junk ids s x = .ok (r, t) ∧ r.nr = x.nr ∧ 0 < r.nc ∧ W.nr = r.nc + 1 ∧ Outside ids s t ∧
      ∀ id ∈ ids, Spec.SameShape (s id) (t id) ∧ ((s id).kind = .dense → (t id).base.Cached x.nr ∧ 2 ≤ (t id).base.W.nr)) ∧
    (¬ (0 < x.nr ∧ Spec.Chains x.nc (Spec.denseWeights s ids ++ [W])) → Net.hiddenForward junk ids s x = .error .throw ∨
      ∃ r t, Net.hiddenForward junk ids s x = .ok (r, t) ∧ ¬ (0 < r.nr ∧ 0 < r.nc ∧ W.nr = r.nc + 1))
  | [], s, x, _, _ => ⟨fun h => ⟨x, s, rfl, rfl, h.2.1, h.2.2.1, fun _ _ => rfl, fun _ h => by simp at h⟩, fun h => Or.inr ⟨x, s, rfl, fun hn => h ⟨hn.1, hn.2.1, hn.2.2, trivial⟩⟩⟩
  | id :: ids, s, x, hnd, hs => by
    rw [List.nodup_cons] at hnd
    -- one layer that succeeds
    have go : ∀ (r : Mat ℝ) (h : HLayer), (s id).forwardprop junk x = .ok (r, h) → r.nr = x.nr → Spec.SameShape (s id) h → ((s id).kind = .dense → h.base.Cached x.nr ∧ 2 ≤ h.base.W.nr) →
        (Spec.Chains x.nc (Spec.denseWeights s (id :: ids) ++ [W]) ↔ Spec.Chains r.nc (Spec.denseWeights s ids ++ [W])) →
        (0 < x.nr ∧ Spec.Chains x.nc (Spec.denseWeights s (id :: ids) ++ [W]) → ∃ r t, Net.hiddenForward junk (id :: ids) s x = .ok (r, t) ∧ r.nr = x.nr ∧ 0 < r.nc ∧ W.nr = r.nc + 1 ∧ Outside (id :: ids) s t ∧
          ∀ i ∈ id :: ids, Spec.SameShape (s i) (t i) ∧ ((s i).kind = .dense → (t i).base.Cached x.nr ∧ 2 ≤ (t i).base.W.nr)) ∧
        (¬ (0 < x.nr ∧ Spec.Chains x.nc (Spec.denseWeights s (id :: ids) ++ [W])) → Net.hiddenForward junk (id :: ids) s x = .error .throw ∨
          ∃ r t, Net.hiddenForward junk (id :: ids) s x = .ok (r, t) ∧ ¬ (0 < r.nr ∧ 0 < r.nc ∧ W.nr = r.nc + 1)) := by
      intro r h e hr ha hc hiff
      have hput : ∀ i ∈ ids, s.put id h i = s i := fun i hi => put_other fun e => hnd.1 (e ▸ hi)
      have ih := mixed_forward (junk := junk) (W := W) (ids := ids) (s := s.put id h) (x := r) hnd.2 fun i hi => by rw [hput i hi]; exact hs i (by simp [hi])
      rw [weights_congr hput, ← hiff, hr] at ih
      have hstep : Net.hiddenForward junk (id :: ids) s x = Net.hiddenForward junk ids (s.put id h) r := by
        conv_lhs => unfold Net.hiddenForward
        rw [e, ok_bind]
      rw [hstep]
      refine ⟨fun hx => ?_, ih.2⟩
      obtain ⟨r', t, f1, f2, f3, f4, f5, f6⟩ := ih.1 hx
      refine ⟨r', t, f1, f2, f3, f4, fun i hi => ?_, fun i hi => ?_⟩
      · rw [List.mem_cons, not_or] at hi
        rw [f5 i hi.2, put_other hi.1]
      · rcases List.mem_cons.1 hi with rfl | hi
        · rw [f5 i hnd.1, put_same]
          exact ⟨ha, hc⟩
        · have := f6 i hi
          rw [hput i hi] at this
          exact this
    have bad : (s id).forwardprop junk x = .error .throw → ¬ (0 < x.nr ∧ Spec.Chains x.nc (Spec.denseWeights s (id :: ids) ++ [W])) →
        (0 < x.nr ∧ Spec.Chains x.nc (Spec.denseWeights s (id :: ids) ++ [W]) → ∃ r t, Net.hiddenForward junk (id :: ids) s x = .ok (r, t) ∧ r.nr = x.nr ∧ 0 < r.nc ∧ W.nr = r.nc + 1 ∧ Outside (id :: ids) s t ∧
          ∀ i ∈ id :: ids, Spec.SameShape (s i) (t i) ∧ ((s i).kind = .dense → (t i).base.Cached x.nr ∧ 2 ≤ (t i).base.W.nr)) ∧
        (¬ (0 < x.nr ∧ Spec.Chains x.nc (Spec.denseWeights s (id :: ids) ++ [W])) → Net.hiddenForward junk (id :: ids) s x = .error .throw ∨
          ∃ r t, Net.hiddenForward junk (id :: ids) s x = .ok (r, t) ∧ ¬ (0 < r.nr ∧ 0 < r.nc ∧ W.nr = r.nc + 1)) := by
      intro e hn
      refine ⟨fun h => absurd h hn, fun _ => Or.inl ?_⟩
      unfold Net.hiddenForward
      rw [e]
      rfl
    have hsi := hs id (by simp)
    obtain ⟨L, k, hid⟩ : ∃ L k, s id = ⟨L, k⟩ := ⟨_, _, rfl⟩
    have hpos : ∀ {p : Nat} {l : List (Mat ℝ)}, Spec.Chains p (l ++ [W]) → 0 < p := by
      intro p l h
      cases l <;> exact h.1
    cases k with
    | dense =>
      have hw : Spec.denseWeights s (id :: ids) = L.W :: Spec.denseWeights s ids := by
        rw [Spec.denseWeights, hid]
      by_cases hc : 0 < x.nr ∧ 0 < x.nc ∧ L.W.nr = x.nc + 1
      · refine go (L.fwd x).a ⟨L.fwd x, .dense⟩ ?_ rfl ?_ (fun _ => ⟨Layer.fwd_cached hc.2.2, ?_⟩) ?_
        · rw [hid]
          unfold HLayer.forwardprop
          simp only
          rw [Layer.forwardprop_ok hc.1 hc.2.1 hc.2.2]
          rfl
        · rw [hid]; exact ⟨rfl, rfl, trivial⟩
        · show 2 ≤ L.W.nr; omega
        · rw [hw]
          show (0 < x.nc ∧ L.W.nr = x.nc + 1 ∧ _) ↔ Spec.Chains L.W.nc _
          exact ⟨fun h => h.2.2, fun h => ⟨hc.2.1, hc.2.2, h⟩⟩
      · refine bad ?_ fun h => ?_
        · rw [hid]
          unfold HLayer.forwardprop
          simp only
          rw [layer_forward_throw hc]
          rfl
        · rw [hw] at h
          exact hc ⟨h.1, h.2.1, h.2.2.1⟩
    | norm v =>
      have hw : Spec.denseWeights s (id :: ids) = Spec.denseWeights s ids := by
        rw [Spec.denseWeights, hid]
      by_cases hc : 0 < x.nr ∧ 0 < x.nc
      · obtain ⟨M, m, h1, h2, -⟩ := maxmin_ok hc.1 hc.2
        refine go (x.divS (if v = 0 then M - m else v)) ⟨{ L with z := x.divS (if v = 0 then M - m else v), a := x.divS (if v = 0 then M - m else v) }, .norm (if v = 0 then M - m else v)⟩ ?_ rfl ?_ (fun h => ?_) ?_
        · rw [hid]
          unfold HLayer.forwardprop Norm.forwardprop
          simp only
          rw [h1, ok_bind, h2, ok_bind]
          rfl
        · rw [hid]; exact ⟨rfl, rfl, trivial⟩
        · rw [hid] at h; cases h
        · rw [hw]; rfl
      · refine bad ?_ fun h => hc ⟨h.1, hpos h.2⟩
        rw [hid]
        unfold HLayer.forwardprop Norm.forwardprop Mat.maxElem
        simp only
        rw [dif_neg (by
          rintro ⟨⟨i, j⟩, hij⟩
          rw [Finset.mem_product, mem_range, mem_range] at hij
          exact hc ⟨by have := hij.1; simp only at this; omega, by have := hij.2; simp only at this; omega⟩)]
        rfl
    | softmax P =>
      have hw : Spec.denseWeights s (id :: ids) = Spec.denseWeights s ids := by
        rw [Spec.denseWeights, hid]
      refine go (Spec.softmaxRows x) ⟨L, .softmax (Spec.softmaxRows x)⟩ ?_ rfl ?_ (fun h => ?_) ?_
      · rw [hid]
        unfold HLayer.forwardprop
        simp only
        rw [softmaxL_ok]
        rfl
      · rw [hid]; exact ⟨rfl, rfl, trivial⟩
      · rw [hid] at h; cases h
      · rw [hw]; rfl
    | conv c => rw [hid] at hsi; exact hsi.elim
    | maxpool c ix => rw [hid] at hsi; exact hsi.elim
    | meanpool c => rw [hid] at hsi; exact hsi.elim

/-- **C125** (forward). A network of dense, normalising and softmax layers in any order, of any sizes: `forwardprop(x)` succeeds if `x` has a sample and the dense layers chain behind the width of `x`, and throws an exception
otherwise. The behaviour is never undefined. -/
theorem C125_forward {junk : Nat → Nat → ℝ} {s : Store} {n : Net} (hnd : n.hidden.Nodup) (hs : ∀ id ∈ n.hidden, Spec.Simple (s id).kind) (x : Mat ℝ) :
    (Spec.FitsInput s n x → ∃ r s' n', n.forwardprop junk s x = .ok (r, s', n') ∧ r.nr = x.nr ∧ r.nc = n.output.W.nc) ∧
    (¬ Spec.FitsInput s n x → n.forwardprop junk s x = .error .throw) := by
  have hm := mixed_forward (junk := junk) (W := n.output.W) (x := x) hnd hs
  constructor
  · intro hx
    obtain ⟨r, t, e, h1, h2, h3, -⟩ := hm.1 hx
    suffices h : ∃ s' n', n.forwardprop junk s x = .ok ((n.output.toLayer.fwd r).a, s', n') by
      obtain ⟨s', n', e⟩ := h
      exact ⟨_, s', n', e, h1, rfl⟩
    unfold Net.forwardprop InputLayer.forwardprop
    simp only
    rw [e, ok_bind]
    simp only
    rw [OutputLayer.forwardprop_ok (by have := hx.1; omega) h2 h3, ok_bind]
    exact ⟨_, _, rfl⟩
  · intro hx
    unfold Net.forwardprop InputLayer.forwardprop
    simp only
    rcases hm.2 hx with e | ⟨r, t, e, h⟩
    · rw [e]; rfl
    · rw [e, ok_bind]
      simp only
      unfold OutputLayer.forwardprop
      rw [layer_forward_throw h]
      rfl

/-- **C125** (predict). `predict(x)` succeeds if the sizes fit and there is an output to choose from, with a row for each sample, and throws otherwise. -/
theorem C125_predict {junk : Nat → Nat → ℝ} {s : Store} {n : Net} (hnd : n.hidden.Nodup) (hs : ∀ id ∈ n.hidden, Spec.Simple (s id).kind) (x : Mat ℝ) :
    (Spec.FitsInput s n x ∧ 0 < n.output.W.nc → ∃ r s' n', n.predict junk s x = .ok (r, s', n') ∧ r.nr = x.nr ∧ r.nc = 2) ∧
    (¬ (Spec.FitsInput s n x ∧ 0 < n.output.W.nc) → n.predict junk s x = .error .throw) := by
  by_cases hx : Spec.FitsInput s n x
  swap
  · refine ⟨fun h => absurd h.1 hx, fun _ => ?_⟩
    unfold Net.predict
    rw [(C125_forward hnd hs x).2 hx]
    rfl
  obtain ⟨r, t, e, h1, h2, h3, -⟩ := (mixed_forward (junk := junk) (W := n.output.W) (x := x) hnd hs).1 hx
  have hr : 0 < x.nr := hx.1
  have hf : n.forwardprop junk s x = .ok ((n.output.toLayer.fwd r).a, t, { n with input := (InputLayer.forwardprop n.input x).2, output := { n.output with toLayer := n.output.toLayer.fwd r }, result := (n.output.toLayer.fwd r).a }) := by
    unfold Net.forwardprop InputLayer.forwardprop
    simp only
    rw [e, ok_bind]
    simp only
    rw [OutputLayer.forwardprop_ok (by omega) h2 h3, ok_bind]
  unfold Net.predict
  rw [hf, ok_bind]
  simp only
  constructor
  · rintro ⟨-, hc⟩
    obtain ⟨am, ha, a1, a2, -⟩ := argmax_ok (o := { n.output with toLayer := n.output.toLayer.fwd r }) hc
    rw [ha, ok_bind]
    exact ⟨_, _, _, rfl, a1.trans h1, a2⟩
  · intro hn
    have hc : n.output.W.nc = 0 := by
      by_contra h
      exact hn ⟨hx, by omega⟩
    rw [(C32_argmax { n.output with toLayer := n.output.toLayer.fwd r }).2 hc (by show 0 < r.nr; omega)]
    rfl

/-- The backward loop. -/
theorem mixed_backward {junk : Nat → Nat → ℝ} {W : Mat ℝ} {m : Nat} {d : Mat ℝ} (hm : 0 < m) (hd : d.nr = m) (hdc : W.nr = d.nc + 1) : ∀ {ids : List Nat} {s : Store} {p : Nat}, ids.Nodup →
    (∀ id ∈ ids, Spec.Simple (s id).kind) → (∀ id ∈ ids, (s id).kind = .dense → (s id).base.Cached m ∧ 2 ≤ (s id).base.W.nr) → Spec.Chains p (Spec.denseWeights s ids ++ [W]) →
    ∃ e t, bwGo junk ids.reverse s d = .ok (e, t) ∧ e.nr = m ∧ e.nc = p ∧ Outside ids s t ∧
      ∀ id ∈ ids, Spec.SameShape (s id) (t id) ∧ ((s id).kind = .dense → (t id).base.grad.nr = (t id).base.W.nr ∧ (t id).base.grad.nc = (t id).base.W.nc)
  | [], s, p, _, _, _, hc => ⟨d, s, rfl, hd, by have := hc.2.1; omega, fun _ _ => rfl, fun _ h => by simp at h⟩
  | id :: ids, s, p, hnd, hs, hca, hc => by
    rw [List.nodup_cons] at hnd
    have go : ∀ (p' : Nat), Spec.Chains p' (Spec.denseWeights s ids ++ [W]) → (∀ e : Mat ℝ, e.nr = m → e.nc = p' → ∃ f h, (s id).backprop junk e = .ok (f, h) ∧ f.nr = m ∧ f.nc = p ∧ Spec.SameShape (s id) h ∧
          ((s id).kind = .dense → h.base.grad.nr = h.base.W.nr ∧ h.base.grad.nc = h.base.W.nc)) →
        ∃ e t, bwGo junk (id :: ids).reverse s d = .ok (e, t) ∧ e.nr = m ∧ e.nc = p ∧ Outside (id :: ids) s t ∧
          ∀ i ∈ id :: ids, Spec.SameShape (s i) (t i) ∧ ((s i).kind = .dense → (t i).base.grad.nr = (t i).base.W.nr ∧ (t i).base.grad.nc = (t i).base.W.nc) := by
      intro p' hc' hl
      obtain ⟨e, t, f1, f2, f3, f4, f5⟩ := mixed_backward (junk := junk) (W := W) hm hd hdc (ids := ids) (s := s) hnd.2 (fun i hi => hs i (by simp [hi])) (fun i hi => hca i (by simp [hi])) hc'
      obtain ⟨f, h, g1, g2, g3, g4, g5⟩ := hl e f2 f3
      refine ⟨f, t.put id h, ?_, g2, g3, fun i hi => ?_, fun i hi => ?_⟩
      · rw [List.reverse_cons, bwGo_append, f1, ok_bind]
        simp only [bwGo]
        rw [f4 id hnd.1, g1]
        rfl
      · rw [List.mem_cons, not_or] at hi
        rw [put_other hi.1, f4 i hi.2]
      · rcases List.mem_cons.1 hi with rfl | hi
        · rw [put_same]; exact ⟨g4, g5⟩
        · rw [put_other (show i ≠ id from fun e => hnd.1 (e ▸ hi))]
          exact f5 i hi
    have hsi := hs id (by simp)
    have hci := hca id (by simp)
    obtain ⟨L, k, hid⟩ : ∃ L k, s id = ⟨L, k⟩ := ⟨_, _, rfl⟩
    unfold Spec.denseWeights at hc
    rw [hid] at hc hsi hci go
    cases k with
    | dense =>
      obtain ⟨c1, c2⟩ := hci rfl
      refine go L.W.nc hc.2.2 fun e e1 e2 => ⟨Layer.backOf (L.dz e) L.W, ⟨L.bwd e, .dense⟩, ?_, e1, ?_, ⟨rfl, rfl, trivial⟩, fun _ => ⟨rfl, rfl⟩⟩
      · unfold HLayer.backprop
        simp only
        rw [Layer.backprop_ok c1 hm c2 e1 e2]
        rfl
      · show L.W.nr - 1 = p
        have : L.W.nr = p + 1 := hc.2.1
        omega
    | norm v => exact go p hc fun e e1 e2 => ⟨_, _, rfl, e1, e2, ⟨rfl, rfl, trivial⟩, fun h => by cases h⟩
    | softmax P =>
      refine go p hc fun e e1 e2 => ⟨Spec.softmaxRows e, ⟨L, .softmax P⟩, ?_, e1, e2, ⟨rfl, rfl, trivial⟩, fun h => by cases h⟩
      unfold HLayer.backprop
      simp only
      rw [show SoftmaxL.backprop e = .ok (Spec.softmaxRows e) from softmaxL_ok e]
      rfl
    | conv c => exact hsi.elim
    | maxpool c ix => exact hsi.elim
    | meanpool c => exact hsi.elim

/-- The update loop. -/
theorem mixed_update : ∀ {ids : List Nat} {s : Store}, ids.Nodup → (∀ id ∈ ids, Spec.Simple (s id).kind) →
    (∀ id ∈ ids, (s id).kind = .dense → (s id).base.grad.nr = (s id).base.W.nr ∧ (s id).base.grad.nc = (s id).base.W.nc) →
    ∃ t, Net.hiddenUpdate ids s = .ok t ∧ Outside ids s t ∧ ∀ id ∈ ids, Spec.SameShape (s id) (t id)
  | [], s, _, _, _ => ⟨s, rfl, fun _ _ => rfl, fun _ h => by simp at h⟩
  | id :: ids, s, hnd, hs, hg => by
    rw [List.nodup_cons] at hnd
    obtain ⟨h, e, ha⟩ : ∃ h, (s id).update = .ok h ∧ Spec.SameShape (s id) h := by
      have hsi := hs id (by simp)
      have hgi := hg id (by simp)
      obtain ⟨L, k, hid⟩ : ∃ L k, s id = ⟨L, k⟩ := ⟨_, _, rfl⟩
      rw [hid] at hsi hgi ⊢
      cases k with
      | dense =>
        obtain ⟨g1, g2⟩ := hgi rfl
        obtain ⟨W', u1, u2, u3, -⟩ := update_dims (L := L) rfl rfl g1 g2
        refine ⟨⟨{ L with W := W' }, .dense⟩, ?_, u2, u3, trivial⟩
        unfold HLayer.update
        simp only
        rw [u1]
        rfl
      | norm v => exact ⟨_, rfl, rfl, rfl, trivial⟩
      | softmax P => exact ⟨_, rfl, rfl, rfl, trivial⟩
      | conv c => exact hsi.elim
      | maxpool c ix => exact hsi.elim
      | meanpool c => exact hsi.elim
    have hput : ∀ i ∈ ids, s.put id h i = s i := fun i hi => put_other fun e => hnd.1 (e ▸ hi)
    obtain ⟨t, f1, f2, f3⟩ := mixed_update (ids := ids) (s := s.put id h) hnd.2 (fun i hi => by rw [hput i hi]; exact hs i (by simp [hi])) (fun i hi => by rw [hput i hi]; exact hg i (by simp [hi]))
    refine ⟨t, ?_, fun i hi => ?_, fun i hi => ?_⟩
    · unfold Net.hiddenUpdate
      rw [e, ok_bind]
      exact f1
    · rw [List.mem_cons, not_or] at hi
      rw [f2 i hi.2, put_other hi.1]
    · rcases List.mem_cons.1 hi with rfl | hi
      · rw [f2 i hnd.1, put_same]; exact ha
      · have := f3 i hi
        rw [hput i hi] at this
        exact this

/-- Samples `x` and labels `y` that the network can be trained on: `x` fits, and `y` has a row for each sample and a column for each output. -/
def Spec.FitsBatch (s : Store) (n : Net) (b : Mat ℝ × Mat ℝ) : Prop := Spec.FitsInput s n b.1 ∧ b.2.nr = b.1.nr ∧ b.2.nc = n.output.W.nc

/-- **C125** (one step). With one of the library's outputs, a training step on `x`, `y` succeeds if their sizes fit, and then every layer keeps its class and size; otherwise it throws. -/
theorem C125_training {junk : Nat → Nat → ℝ} {s : Store} {n : Net} (hnd : n.hidden.Nodup) (hs : ∀ id ∈ n.hidden, Spec.Simple (s id).kind) (hl : Spec.LibraryCostd n.output.costd) (x y : Mat ℝ) :
    (Spec.FitsBatch s n (x, y) → ∃ s' n', n.trainOn junk s x y = .ok (s', n') ∧ n'.hidden = n.hidden ∧ n'.output.costd = n.output.costd ∧ n'.output.W.nr = n.output.W.nr ∧ n'.output.W.nc = n.output.W.nc ∧
      ∀ id ∈ n.hidden, Spec.SameShape (s id) (s' id)) ∧
    (¬ Spec.FitsBatch s n (x, y) → n.trainOn junk s x y = .error .throw) := by
  obtain ⟨hc1, hc2⟩ := library_cases hl
  by_cases hx : Spec.FitsInput s n x
  swap
  · refine ⟨fun h => absurd h.1 hx, fun _ => ?_⟩
    unfold Net.trainOn
    rw [(C125_forward hnd hs x).2 hx]
    rfl
  obtain ⟨r, t, e, h1, h2, h3, h4, h5⟩ := (mixed_forward (junk := junk) (W := n.output.W) (x := x) hnd hs).1 hx
  have hr : 0 < x.nr := hx.1
  set o := ({ n.output with toLayer := n.output.toLayer.fwd r } : OutputLayer) with ho
  have hf : n.forwardprop junk s x = .ok ((n.output.toLayer.fwd r).a, t, { n with input := (InputLayer.forwardprop n.input x).2, output := o, result := (n.output.toLayer.fwd r).a }) := by
    unfold Net.forwardprop InputLayer.forwardprop
    simp only
    rw [e, ok_bind]
    simp only
    rw [OutputLayer.forwardprop_ok (by omega) h2 h3, ok_bind]
  unfold Net.trainOn
  rw [hf, ok_bind]
  simp only
  constructor
  · rintro ⟨-, hy1, hy2⟩
    simp only at hy1 hy2
    obtain ⟨D, hD, d1, d2⟩ := hc2 y o.a o.z (by show r.nr = _; omega) (by show n.output.W.nc = _; omega) (by show r.nr = _; omega) (by show n.output.W.nc = _; omega)
    have hob : o.backprop y = .ok (Layer.backOf D o.W, o.bwd y D) :=
      OutputLayer.backprop_ok (m := r.nr) (Layer.fwd_cached h3) (by show 1 ≤ n.output.W.nr; omega) hD (by omega) (by show _ = n.output.W.nc; omega)
    have hst : ∀ id ∈ n.hidden, Spec.Simple (t id).kind := fun id hi => alike_simple (h5 id hi).1
    obtain ⟨d', t1, b1, -, -, -, b5⟩ := mixed_backward (junk := junk) (W := n.output.W) (m := x.nr) (d := Layer.backOf D o.W) hr (by show D.nr = _; omega) (by show _ = (n.output.W.nr - 1) + 1; omega) hnd hst
      (fun id hi hk => (h5 id hi).2 ((alike_dense (h5 id hi).1).1 hk)) ((chains_dims (List.rel_append (weights_alike fun id hi => (h5 id hi).1) (.cons ⟨rfl, rfl⟩ .nil))).2 hx.2)
    obtain ⟨t2, u1, -, u3⟩ := mixed_update (s := t1) hnd (fun id hi => alike_simple (b5 id hi).1) (fun id hi hk => (b5 id hi).2 ((alike_dense (b5 id hi).1).1 hk))
    obtain ⟨W1, v1, v2, v3, -⟩ := update_dims (L := (o.bwd y D).toLayer) (r := n.output.W.nr) (c := n.output.W.nc) rfl rfl rfl rfl
    refine ⟨t2, { n with input := (InputLayer.forwardprop n.input x).2, output := { o.bwd y D with toLayer := { (o.bwd y D).toLayer with W := W1 } }, result := (n.output.toLayer.fwd r).a }, ?_, rfl, rfl, v2, v3,
      fun id hi => alike_trans (alike_trans (h5 id hi).1 (b5 id hi).1) (u3 id hi)⟩
    unfold Net.backprop
    simp only
    rw [hob, ok_bind]
    simp only
    rw [hiddenBackward_eq, b1]
    simp only [ok_bind]
    unfold Net.update
    simp only
    rw [v1, ok_bind, u1]
    rfl
  · intro hn
    unfold Net.backprop OutputLayer.backprop
    simp only
    rw [hc1 y o.a o.z (fun h => hn ⟨hx, by have := h.1; have e : o.a.nr = r.nr := rfl; show y.nr = x.nr; omega, h.2⟩)]
    rfl

/-- **C125** (any training history). The number of steps does not matter: a sequence of training steps succeeds exactly if the sizes of every batch fit the network as it was built, and throws otherwise. -/
theorem C125_history {junk : Nat → Nat → ℝ} : ∀ {bs : List (Mat ℝ × Mat ℝ)} {s : Store} {n : Net}, n.hidden.Nodup → (∀ id ∈ n.hidden, Spec.Simple (s id).kind) → Spec.LibraryCostd n.output.costd →
    ((∀ b ∈ bs, Spec.FitsBatch s n b) → ∃ s' n', n.trainSeq junk bs s = .ok (s', n') ∧ n'.hidden = n.hidden ∧ ∀ id ∈ n.hidden, Spec.SameShape (s id) (s' id)) ∧
    (¬ (∀ b ∈ bs, Spec.FitsBatch s n b) → n.trainSeq junk bs s = .error .throw)
  | [], s, n, _, hs, _ => ⟨fun _ => ⟨s, n, rfl, rfl, fun id hi => alike_refl (hs id hi)⟩, fun h => absurd (fun b hb => by simp at hb) h⟩
  | b :: bs, s, n, hnd, hs, hl => by
    have h1 := C125_training (junk := junk) hnd hs hl b.1 b.2
    by_cases hb : Spec.FitsBatch s n b
    · obtain ⟨s1, n1, e, k1, k2, k3, k4, k5⟩ := h1.1 hb
      have hiff : ∀ c, Spec.FitsBatch s1 n1 c ↔ Spec.FitsBatch s n c := fun c => by
        unfold Spec.FitsBatch
        rw [fitsInput_alike k1 k5 k3 k4, k4]
      have ih := C125_history (junk := junk) (bs := bs) (s := s1) (n := n1) (by rw [k1]; exact hnd) (fun id hi => alike_simple (k5 id (by rw [← k1]; exact hi))) (by rw [k2]; exact hl)
      simp only [hiff] at ih
      have hstep : n.trainSeq junk (b :: bs) s = n1.trainSeq junk bs s1 := by
        conv_lhs => unfold Net.trainSeq
        rw [e, ok_bind]
      rw [hstep]
      refine ⟨fun h => ?_, fun h => ih.2 fun h' => h fun c hc => ?_⟩
      · obtain ⟨s', n', f1, f2, f3⟩ := ih.1 fun c hc => h c (by simp [hc])
        exact ⟨s', n', f1, f2.trans k1, fun id hi => alike_trans (k5 id hi) (f3 id (by rw [k1]; exact hi))⟩
      · rcases List.mem_cons.1 hc with rfl | hc
        exacts [hb, h' c hc]
    · refine ⟨fun h => absurd (h b (by simp)) hb, fun _ => ?_⟩
      unfold Net.trainSeq
      rw [h1.2 hb]
      rfl

/-- A normalising layer, a dense one from 2 values to 3, a softmax layer, and an output layer from 3 values to 1. -/
def mixStore : Store := fun i => if i = 1 then ⟨exLayer Act.identity (Mat.of 3 3 fun _ _ => 1), .dense⟩ else if i = 0 then ⟨exLayer Act.identity .empty, .norm 0⟩ else ⟨exLayer Act.identity .empty, .softmax .empty⟩
def mixNet : Net := { sfNet with hidden := [0, 1, 2], output := { sfNet.output with W := Mat.of 4 1 fun _ _ => 1 } }

theorem mix_simple : ∀ id ∈ mixNet.hidden, Spec.Simple (mixStore id).kind := by
  intro id hi
  simp only [mixNet, List.mem_cons, List.not_mem_nil, or_false] at hi
  rcases hi with rfl | rfl | rfl <;> trivial

theorem mix_batch (x y : Mat ℝ) : Spec.FitsBatch mixStore mixNet (x, y) ↔ (0 < x.nr ∧ x.nc = 2) ∧ y.nr = x.nr ∧ y.nc = 1 := by
  have hw : Spec.denseWeights mixStore mixNet.hidden = [Mat.of 3 3 fun _ _ => 1] := rfl
  unfold Spec.FitsBatch Spec.FitsInput
  rw [hw]
  show (0 < x.nr ∧ 0 < x.nc ∧ 3 = x.nc + 1 ∧ 0 < 3 ∧ 4 = 3 + 1 ∧ True) ∧ _ ↔ _
  constructor
  · rintro ⟨⟨h1, h2, h3, -⟩, h4, h5⟩
    exact ⟨⟨h1, by omega⟩, h4, h5⟩
  · rintro ⟨⟨h1, h2⟩, h4, h5⟩
    exact ⟨⟨h1, by omega, by omega, by omega, rfl, trivial⟩, h4, h5⟩

/-- The theorems apply: this network trains on five samples with two values each and one label each, however often, and throws for samples with three values. -/
example (junk : Nat → Nat → ℝ) (T : Nat) (z : Mat ℝ) (hz : z.nc = 3) :
    (∃ s' n', mixNet.trainSeq junk (List.replicate T (Mat.of 5 2 fun i _ => i, Mat.of 5 1 fun _ _ => 1)) mixStore = .ok (s', n')) ∧ mixNet.trainOn junk mixStore z z = .error .throw := by
  have hnd : mixNet.hidden.Nodup := by simp [mixNet]
  have hl : Spec.LibraryCostd mixNet.output.costd := Or.inl rfl
  refine ⟨?_, (C125_training hnd mix_simple hl z z).2 fun h => ?_⟩
  · obtain ⟨s', n', e, -⟩ := (C125_history (junk := junk) hnd mix_simple hl).1 fun b (hb : b ∈ List.replicate T (Mat.of 5 2 fun i _ => (i : ℝ), Mat.of 5 1 fun _ _ => (1 : ℝ))) => by
      obtain rfl := List.eq_of_mem_replicate hb
      exact (mix_batch _ _).2 ⟨⟨by show 0 < 5; omega, rfl⟩, rfl, rfl⟩
    exact ⟨s', n', e⟩
  · have := (mix_batch z z).1 h
    omega

end
end Nnet.NN
