import Verif.NN.PropsInit
import Verif.NN.PropsShare
/-!
# C63: the functions that change weights change exactly the weights they name
-/
namespace Nnet.NN
open Finset
noncomputable section

/-- A gradient step: every weight moves by the learning rate times its gradient against the gradient. Everything else is as before. -/
def Spec.stepped (L : Layer) : Layer := { L with W := Mat.of L.W.nr L.W.nc (fun i j => L.W.f i j - L.lrate * L.grad.f i j) }

/-- The classes of layers that learn. -/
def Spec.Learns : Kind → Prop
  | .dense => True
  | .conv _ => True
  | _ => False

/-- The hidden layers of a network as objects, first to last. -/
def Net.objects (s : Store) (n : Net) : List HLayer := n.hidden.map s

/-- What `update()` should do to a hidden layer. -/
def Spec.steppedObject : HLayer → HLayer
  | ⟨L, .dense⟩ => ⟨Spec.stepped L, .dense⟩
  | ⟨L, .conv c⟩ => ⟨Spec.stepped L, .conv c⟩
  | h => h

theorem layer_update_stepped {L : Layer} (h : L.grad.nr = L.W.nr ∧ L.grad.nc = L.W.nc) : L.update = .ok (Spec.stepped L) := by
  unfold Layer.update
  rw [Mat.sub_ok (by simp [h.1]) (by simp [h.2])]
  simp only [Mat.smul_f, ok_bind]
  rfl

theorem hlayer_update_stepped {h : HLayer} (hg : Spec.Learns h.kind → h.base.grad.nr = h.base.W.nr ∧ h.base.grad.nc = h.base.W.nc) :
    h.update = .ok (Spec.steppedObject h) := by
  obtain ⟨L, k⟩ := h
  unfold HLayer.update
  cases k with
  | dense => simp only; rw [layer_update_stepped (hg trivial), ok_bind]; rfl
  | conv c => simp only; rw [layer_update_stepped (hg trivial), ok_bind]; rfl
  | norm v => rfl
  | softmax p => rfl
  | maxpool c ix => rfl
  | meanpool c => rfl

theorem hiddenUpdate_stepped : ∀ {ps : List Nat} {s : Store}, ps.Nodup →
    (∀ p ∈ ps, Spec.Learns (s p).kind → (s p).base.grad.nr = (s p).base.W.nr ∧ (s p).base.grad.nc = (s p).base.W.nc) →
    ∃ s', Net.hiddenUpdate ps s = .ok s' ∧ (∀ p ∈ ps, s' p = Spec.steppedObject (s p)) ∧ (∀ p, p ∉ ps → s' p = s p)
  | [], s, _, _ => ⟨s, rfl, by simp, fun _ _ => rfl⟩
  | p :: ps, s, hn, hg => by
    obtain ⟨hp, hn⟩ := List.nodup_cons.1 hn
    have hs : ∀ q ∈ ps, (s.put p (Spec.steppedObject (s p))) q = s q := fun q hq => put_other fun h => hp (h ▸ hq)
    obtain ⟨s', e, h1, h2⟩ := hiddenUpdate_stepped (s := s.put p (Spec.steppedObject (s p))) hn (fun q hq => by
      rw [hs q hq]; exact hg q (by simp [hq]))
    refine ⟨s', ?_, fun q hq => ?_, fun q hq => ?_⟩
    · unfold Net.hiddenUpdate
      rw [hlayer_update_stepped (hg p (by simp)), ok_bind]
      exact e
    · rcases List.mem_cons.1 hq with rfl | hq
      · rw [h2 q hp, put_same]
      · rw [h1 q hq, hs q hq]
    · simp only [List.mem_cons, not_or] at hq
      rw [h2 q hq.2, put_other hq.1]

/-- **C63, `update()`.** For every network of layers of any classes, no layer used twice, whose gradients have the sizes of the weights: every dense and every convolution layer
and the output layer take one gradient step, the other layers, the layers outside the network and everything else in the network stay as they are. -/
theorem C63_update {s : Store} {n : Net} (hn : n.hidden.Nodup) (ho : n.output.grad.nr = n.output.W.nr ∧ n.output.grad.nc = n.output.W.nc)
    (hg : ∀ h ∈ n.objects s, Spec.Learns h.kind → h.base.grad.nr = h.base.W.nr ∧ h.base.grad.nc = h.base.W.nc) :
    ∃ s' n', n.update s = .ok (s', n') ∧ n'.objects s' = (n.objects s).map Spec.steppedObject ∧ n'.output = { n.output with toLayer := Spec.stepped n.output.toLayer } ∧
      n' = { n with output := n'.output } ∧ (∀ p, p ∉ n.hidden → s' p = s p) := by
  obtain ⟨s', e, h1, h2⟩ := hiddenUpdate_stepped hn (s := s) (fun p hp => hg (s p) (List.mem_map.2 ⟨p, hp, rfl⟩))
  refine ⟨s', { n with output := { n.output with toLayer := Spec.stepped n.output.toLayer } }, ?_, ?_, rfl, rfl, h2⟩
  · unfold Net.update
    rw [layer_update_stepped ho, ok_bind, e, ok_bind]
  · unfold Net.objects
    rw [List.map_map]
    exact List.map_congr_left fun p hp => h1 p hp

theorem vecAt_nat {α : Type} {l : List α} {i : Nat} {v : α} (h : l[i]? = some v) : vecAt l (i : Int) = .ok v := by
  unfold vecAt
  rw [if_pos (by omega)]
  simp [h]

theorem objects_put {s : Store} {n : Net} {i p : Nat} {v : HLayer} (hn : n.hidden.Nodup) (hi : n.hidden[i]? = some p) :
    n.objects (s.put p v) = (n.objects s).set i v := by
  unfold Net.objects
  refine List.ext_getElem? fun j => ?_
  rw [List.getElem?_map, List.getElem?_set, List.getElem?_map, List.length_map]
  have hil : i < n.hidden.length := (List.getElem?_eq_some_iff.1 hi).1
  by_cases hij : i = j
  · subst hij
    rw [if_pos rfl, if_pos hil, hi]
    show some ((s.put p v) p) = _
    rw [put_same]
  · rw [if_neg hij]
    cases hj : n.hidden[j]? with
    | none => rfl
    | some q =>
      show some ((s.put p v) q) = some (s q)
      rw [put_other]
      rintro rfl
      exact hij ((List.getElem?_inj hil hn).1 (hi.trans hj.symm))

/-- **C63, `sethiddenw(i, w)`.** The weights of the hidden layer number `i` are `w`, everything else (the other members of the layer, the other layers) is as before. With an index out of range
the behaviour is undefined. -/
theorem C63_sethiddenw {s : Store} {n : Net} (hn : n.hidden.Nodup) (i : Nat) (w : Mat ℝ) :
    (∀ h, (n.objects s)[i]? = some h → ∃ s', n.sethiddenw s i w = .ok s' ∧ n.objects s' = (n.objects s).set i ⟨{ h.base with W := w }, h.kind⟩ ∧ ∀ p, p ∉ n.hidden → s' p = s p) ∧
    ((n.objects s)[i]? = none → n.sethiddenw s i w = .error (.ub .vectorIndex)) := by
  constructor
  · intro h hi
    unfold Net.objects at hi
    rw [List.getElem?_map] at hi
    cases hp : n.hidden[i]? with
    | none => rw [hp] at hi; cases hi
    | some p =>
      rw [hp] at hi
      cases hi
      refine ⟨s.put p ((s p).setw w), ?_, objects_put hn hp, fun q hq => put_other fun hqp => hq (hqp ▸ List.mem_of_getElem? hp)⟩
      unfold Net.sethiddenw
      rw [vecAt_nat hp, ok_bind]
  · intro hi
    unfold Net.objects at hi
    rw [List.getElem?_map] at hi
    cases hp : n.hidden[i]? with
    | some p => rw [hp] at hi; cases hi
    | none =>
      unfold Net.sethiddenw vecAt
      rw [if_pos (by omega)]
      simp only [Int.toNat_natCast, hp]
      rfl

/-- **C63, `setoutputw(w)`.** The weights of the output layer are `w`, everything else is as before. -/
theorem C63_setoutputw (n : Net) (w : Mat ℝ) : (n.setoutputw w).output.W = w ∧ (∀ v, (n.setoutputw w).setoutputw v = n.setoutputw v) ∧ n.setoutputw n.output.W = n ∧
    (∀ s, (n.setoutputw w).objects s = n.objects s) ∧ ∀ y pred, (n.setoutputw w).computecost pred y = n.computecost pred y :=
  ⟨rfl, fun _ => rfl, rfl, fun _ => rfl, fun _ _ => rfl⟩

/-- The layer after `randominit`, where `L'` is the layer with new weights. -/
def Spec.redrawn : HLayer → Layer → HLayer
  | ⟨L, .norm v⟩, _ => ⟨L, .norm v⟩
  | ⟨L, .softmax p⟩, _ => ⟨L, .softmax p⟩
  | ⟨_, k⟩, L' => ⟨L', k⟩

theorem hlayer_randominit {dist : Draws} {h : HLayer} {sd : ℝ} {L' : Layer} (hL : h.base.randominit dist sd = .ok L') :
    h.randominit dist sd = .ok (Spec.redrawn h L') := by
  obtain ⟨L, k⟩ := h
  unfold HLayer.randominit
  cases k with
  | norm v => rfl
  | softmax p => rfl
  | dense => simp only; rw [hL, ok_bind]; rfl
  | conv c => simp only; rw [hL, ok_bind]; rfl
  | maxpool c ix => simp only; rw [hL, ok_bind]; rfl
  | meanpool c => simp only; rw [hL, ok_bind]; rfl

/-- **C63, `randomize(stddev)`.** Whatever number `rand()` returns, exactly one layer gets new weights: counting the hidden layers from 0 and the output layer as the last, the one whose number is
the remainder of that number by the number of layers (a hidden norm or softmax layer has none). Its new weights are those `randominit` draws (see C34). Everything else is as before. -/
theorem C63_randomize {dist : Draws} {s : Store} {n : Net} (hn : n.hidden.Nodup) (rand : Nat) (sd : ℝ) :
    let k := rand % (n.hidden.length + 1)
    (∀ h L', (n.objects s)[k]? = some h → h.base.randominit dist sd = .ok L' → ∃ s', n.randomize dist rand s sd = .ok (s', n) ∧ n.objects s' = (n.objects s).set k (Spec.redrawn h L') ∧
      ∀ p, p ∉ n.hidden → s' p = s p) ∧
    (∀ L', k = n.hidden.length → n.output.toLayer.randominit dist sd = .ok L' → n.randomize dist rand s sd = .ok (s, { n with output := { n.output with toLayer := L' } })) := by
  intro k
  have hk : n.randomize dist rand s sd = n.randomizeAt dist s k sd := rfl
  constructor
  · intro h L' hi hL
    unfold Net.objects at hi
    rw [List.getElem?_map] at hi
    cases hp : n.hidden[k]? with
    | none => rw [hp] at hi; cases hi
    | some p =>
      rw [hp] at hi
      cases hi
      refine ⟨s.put p (Spec.redrawn (s p) L'), ?_, objects_put hn hp, fun q hq => put_other fun hqp => hq (hqp ▸ List.mem_of_getElem? hp)⟩
      rw [hk]
      unfold Net.randomizeAt
      rw [hp]
      simp only
      rw [hlayer_randominit hL, ok_bind]
  · intro L' hkl hL
    rw [hk]
    unfold Net.randomizeAt
    rw [List.getElem?_eq_none (by omega)]
    simp only
    rw [hL, ok_bind]

/-- Every layer, the output layer included, is chosen by some value of `rand()`. -/
theorem C63_every_layer_can_be_chosen (n : Net) (k : Nat) (hk : k ≤ n.hidden.length) (dist : Draws) (s : Store) (sd : ℝ) :
    ∃ rand, n.randomize dist rand s sd = n.randomizeAt dist s k sd :=
  ⟨k, by unfold Net.randomize; rw [Nat.mod_eq_of_lt (by omega)]⟩

/-- The hypotheses are met by a network with a dense, a convolution and a norm layer, one of each; the dense and the convolution layer move, the norm layer does not. -/
example (c : Conv) (L : Layer) (hL : L.grad.nr = L.W.nr ∧ L.grad.nc = L.W.nc) : ∃ (s : Store) (n : Net) (s' : Store) (n' : Net), n.hidden = [0, 1, 2] ∧
    n.update s = .ok (s', n') ∧ n'.objects s' = [⟨Spec.stepped L, .dense⟩, ⟨Spec.stepped L, .conv c⟩, ⟨L, .norm 1⟩] := by
  let s : Store := fun p => ⟨L, if p = 0 then .dense else if p = 1 then .conv c else .norm 1⟩
  let n : Net := { result := .empty, cost := Quadratic.cost, costd := Quadratic.costd, input := L, hidden := [0, 1, 2], output := { L with cost := Quadratic.cost, costd := Quadratic.costd, y := .empty } }
  obtain ⟨s', n', e, h, -⟩ := C63_update (s := s) (n := n) (by simp [n]) hL (fun h hh _ => by
    obtain ⟨p, -, rfl⟩ := List.mem_map.1 hh
    exact hL)
  refine ⟨s, n, s', n', rfl, e, ?_⟩
  rw [h]
  simp [Net.objects, n, s, Spec.steppedObject, Spec.Learns]

end
end Nnet.NN
