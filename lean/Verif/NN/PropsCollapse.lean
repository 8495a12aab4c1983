import Verif.NN.PropsForward
import Verif.NN.PropsChecker
import Verif.NN.PropsAct
import Verif.NN.PropsTied
/-!
# C102: hidden layers with the identity activation add nothing
-/
namespace Nnet.NN
open Finset
noncomputable section

/-! ## Lemmas -/

/-- The weights of the single layer that does what a layer `V` without activation followed by a layer `W` does. -/
def mergeW (V W : Mat ℝ) : Mat ℝ :=
  Mat.of V.nr W.nc (fun i j => (if i = 0 then W.f 0 j else 0) + ∑ k ∈ range V.nc, V.f i k * W.f (k + 1) j)

theorem dense_at {act : ℝ → ℝ} {W x : Mat ℝ} {i j : Nat} (hi : i < x.nr) (hj : j < W.nc) : (Spec.dense act W x).f i j = act (W.f 0 j + ∑ k ∈ range x.nc, x.f i k * W.f (k + 1) j) := by
  unfold Spec.dense
  rw [Mat.of_f' hi hj]

theorem dense_merge {V W x : Mat ℝ} {act : ℝ → ℝ} (hV : V.nr = x.nc + 1) : Spec.dense act W (Spec.dense id V x) = Spec.dense act (mergeW V W) x := by
  unfold Spec.dense
  refine Mat.of_congr fun i j hi hj => ?_
  congr 1
  unfold mergeW
  rw [Mat.of_f' (by omega) hj, if_pos rfl]
  rw [show (Mat.of x.nr V.nc fun i j => id (V.f 0 j + ∑ k ∈ range x.nc, x.f i k * V.f (k + 1) j)).nc = V.nc from rfl]
  have e1 : ∀ k ∈ range V.nc, (Mat.of x.nr V.nc fun i j => id (V.f 0 j + ∑ k ∈ range x.nc, x.f i k * V.f (k + 1) j)).f i k * W.f (k + 1) j =
      V.f 0 k * W.f (k + 1) j + ∑ l ∈ range x.nc, x.f i l * (V.f (l + 1) k * W.f (k + 1) j) := by
    intro k hk
    rw [Mat.of_f' (by exact hi) (by exact mem_range.1 hk)]
    show (V.f 0 k + ∑ l ∈ range x.nc, x.f i l * V.f (l + 1) k) * W.f (k + 1) j = _
    rw [add_mul, sum_mul]
    congr 1
    exact sum_congr rfl fun l _ => by ring
  rw [sum_congr rfl e1, sum_add_distrib, sum_comm]
  have e2 : ∀ l ∈ range x.nc, x.f i l * (Mat.of V.nr W.nc (fun i j => (if i = 0 then W.f 0 j else 0) + ∑ k ∈ range V.nc, V.f i k * W.f (k + 1) j)).f (l + 1) j =
      ∑ k ∈ range V.nc, x.f i l * (V.f (l + 1) k * W.f (k + 1) j) := by
    intro l hl
    rw [Mat.of_f' (by have := mem_range.1 hl; omega) hj, if_neg (by omega), zero_add, mul_sum]
  rw [sum_congr rfl e2]
  ring

theorem denseNet_append (ls ms : List ((ℝ → ℝ) × Mat ℝ)) (x : Mat ℝ) : Spec.denseNet (ls ++ ms) x = Spec.denseNet ms (Spec.denseNet ls x) := by
  induction ls generalizing x with
  | nil => rfl
  | cons l ls ih => exact ih _

theorem collapse : ∀ (ls : List ((ℝ → ℝ) × Mat ℝ)) (act : ℝ → ℝ) (W : Mat ℝ) {p q : Nat}, (∀ l ∈ ls, l.1 = id) → Spec.Fits p ((ls ++ [(act, W)]).map (·.2)) q →
    ∃ U : Mat ℝ, U.nr = p + 1 ∧ U.nc = q ∧ 0 < q ∧ ∀ x : Mat ℝ, x.nc = p → Spec.denseNet (ls ++ [(act, W)]) x = Spec.dense act U x
  | [], act, W, p, q, _, hf => ⟨W, hf.1, hf.2.2, by have h1 : 0 < W.nc := hf.2.1; have h2 : W.nc = q := hf.2.2; omega, fun _ _ => rfl⟩
  | (a, V) :: ls, act, W, p, q, hl, hf => by
    have ha : a = id := hl (a, V) (by simp)
    subst ha
    obtain ⟨U, u1, u2, u3, u4⟩ := collapse ls act W (p := V.nc) (q := q) (fun l h => hl l (by simp [h])) hf.2.2
    refine ⟨mergeW V U, hf.1, u2, u3, fun x hx => ?_⟩
    show Spec.denseNet (ls ++ [(act, W)]) (Spec.dense id V x) = _
    rw [u4 (Spec.dense id V x) rfl]
    exact dense_merge (by rw [hx]; exact hf.1)

/-- Networks that compute the same function give the same outputs and the same predictions. -/
theorem same_function {s s1 : Store} {n m : Net} {p q : Nat} {x : Mat ℝ} (junk junk1 : Nat → Nat → ℝ) (h : n.WF s p q) (hm : m.WF s1 p q) (hr : 0 < x.nr) (hc : x.nc = p)
    (hsame : Spec.denseNet (m.params s1) x = Spec.denseNet (n.params s) x) :
    (∃ out s' n' s1' m', n.forwardprop junk s x = .ok (out, s', n') ∧ m.forwardprop junk1 s1 x = .ok (out, s1', m')) ∧
      ∃ r s' n' s1' m', n.predict junk s x = .ok (r, s', n') ∧ m.predict junk1 s1 x = .ok (r, s1', m') := by
  constructor
  · obtain ⟨s', n', a1, -⟩ := C28_network (junk := junk) h hr hc
    obtain ⟨s1', m', b1, -⟩ := C28_network (junk := junk1) hm hr hc
    rw [hsame] at b1
    exact ⟨_, _, _, _, _, a1, b1⟩
  · obtain ⟨r, s', n', a1, a2, a3, -, a4⟩ := C32_predict (junk := junk) h hr hc
    obtain ⟨r1, s1', m', b1, b2, b3, -, b4⟩ := C32_predict (junk := junk1) hm hr hc
    rw [hsame] at b4
    have hrr : r1 = r := by
      refine Mat.ext' (by omega) (by omega) fun i j hi hj => ?_
      obtain ⟨k, k1, k2, k3, k4, k5⟩ := a4 i (by omega)
      obtain ⟨l, l1, l2, l3, l4, l5⟩ := b4 i (by omega)
      have hkl : l = k := by
        rcases Nat.lt_trichotomy l k with hlt | heq | hgt
        · exact absurd (l4 k k3) (not_le.2 (k5 l hlt))
        · exact heq
        · exact absurd (k4 l l3) (not_le.2 (l5 k hgt))
      subst hkl
      rcases (show j = 0 ∨ j = 1 by omega) with rfl | rfl
      · rw [k1, l1]
      · rw [k2, l2]
    rw [hrr] at b1
    exact ⟨_, _, _, _, _, a1, b1⟩

/-! ## C102 -/

/-- **C102.** Take a well-formed dense network, of any depth and widths, whose hidden activations are the identity. There are weights for a network without hidden layers with which that network
(given the same output activation) gives the same outputs and the same predictions on every input. -/
theorem C102_collapse {s : Store} {n : Net} {p q : Nat} (h : n.WF s p q) (hid : ∀ L ∈ n.hiddenLayers s, L.actfunc.act = id) :
    ∃ U : Mat ℝ, U.nr = p + 1 ∧ U.nc = q ∧ ∀ (s1 : Store) (m : Net), m.hidden = [] → m.output.W = U → m.output.actfunc.act = n.output.actfunc.act →
      m.WF s1 p q ∧ ∀ (junk junk1 : Nat → Nat → ℝ) (x : Mat ℝ), 0 < x.nr → x.nc = p →
        (∃ out s' n' s1' m', n.forwardprop junk s x = .ok (out, s', n') ∧ m.forwardprop junk1 s1 x = .ok (out, s1', m')) ∧
        ∃ r s' n' s1' m', n.predict junk s x = .ok (r, s', n') ∧ m.predict junk1 s1 x = .ok (r, s1', m') := by
  have hp : n.params s = (n.hiddenLayers s).map (fun L => (L.actfunc.act, L.W)) ++ [(n.output.actfunc.act, n.output.W)] := by
    unfold Net.params Net.layers
    rw [List.map_append]
    rfl
  have hf := h.fits
  have e : (n.layers s).map (·.W) = (n.params s).map (·.2) := by unfold Net.params; rw [List.map_map]; rfl
  rw [e, hp] at hf
  obtain ⟨U, u1, u2, u3, u4⟩ := collapse _ _ _ (fun l hl => by obtain ⟨L, hL, rfl⟩ := List.mem_map.1 hl; exact hid L hL) hf
  refine ⟨U, u1, u2, fun s1 m h1 h2 h3 => ?_⟩
  have hlay : m.layers s1 = [m.output.toLayer] := by unfold Net.layers Net.hiddenLayers; rw [h1]; rfl
  have hm : m.WF s1 p q := ⟨by rw [h1]; exact List.nodup_nil, by rw [h1]; simp, h.pos, by rw [hlay]; show m.output.W.nr = p + 1 ∧ 0 < m.output.W.nc ∧ m.output.W.nc = q; rw [h2]; omega⟩
  have hmp : m.params s1 = [(n.output.actfunc.act, U)] := by unfold Net.params; rw [hlay]; show [(m.output.actfunc.act, m.output.W)] = _; rw [h2, h3]
  refine ⟨hm, fun junk junk1 x hr hc => ?_⟩
  have hsame : Spec.denseNet (m.params s1) x = Spec.denseNet (n.params s) x := by
    rw [hmp, hp, u4 x hc]; rfl
  exact same_function junk junk1 h hm hr hc hsame

/-- The four inputs of the xor problem, one per row. -/
def Spec.xorX : Mat ℝ := Mat.of 4 2 (fun i j => if j = 0 then (if i = 2 ∨ i = 3 then 1 else 0) else (if i = 1 ∨ i = 3 then 1 else 0))

/-- **C102** (xor). No dense network with two outputs, identity hidden activations and a strictly increasing output activation, whatever its depth, widths and weights, predicts the classes 0, 1, 1, 0
of the xor problem. -/
theorem C102_xor {junk : Nat → Nat → ℝ} {s s' : Store} {n n' : Net} {r : Mat ℝ} (h : n.WF s 2 2) (hid : ∀ L ∈ n.hiddenLayers s, L.actfunc.act = id) (hact : StrictMono n.output.actfunc.act)
    (hp : n.predict junk s Spec.xorX = .ok (r, s', n')) : ¬ (r.f 0 0 = 0 ∧ r.f 1 0 = 1 ∧ r.f 2 0 = 1 ∧ r.f 3 0 = 0) := by
  rintro ⟨r0, r1, r2, r3⟩
  have hps : n.params s = (n.hiddenLayers s).map (fun L => (L.actfunc.act, L.W)) ++ [(n.output.actfunc.act, n.output.W)] := by
    unfold Net.params Net.layers
    rw [List.map_append]
    rfl
  have hf := h.fits
  have e : (n.layers s).map (·.W) = (n.params s).map (·.2) := by unfold Net.params; rw [List.map_map]; rfl
  rw [e, hps] at hf
  obtain ⟨U, u1, u2, u3, u4⟩ := collapse _ _ _ (fun l hl => by obtain ⟨L, hL, rfl⟩ := List.mem_map.1 hl; exact hid L hL) hf
  obtain ⟨ra, sa, na, a1, a2, a3, -, a4⟩ := C32_predict (junk := junk) h (x := Spec.xorX) (by show 0 < 4; omega) rfl
  rw [hp] at a1
  have hra : ra = r := (congrArg (fun t => t.1) (Except.ok.inj a1)).symm
  subst hra
  rw [hps, u4 _ rfl] at a4
  have key : ∀ i < 4, ∀ k : Nat, ra.f i 0 = k → (k = 0 → U.f 0 1 + (Spec.xorX.f i 0 * U.f 1 1 + Spec.xorX.f i 1 * U.f 2 1) ≤ U.f 0 0 + (Spec.xorX.f i 0 * U.f 1 0 + Spec.xorX.f i 1 * U.f 2 0)) ∧
      (k = 1 → U.f 0 0 + (Spec.xorX.f i 0 * U.f 1 0 + Spec.xorX.f i 1 * U.f 2 0) < U.f 0 1 + (Spec.xorX.f i 0 * U.f 1 1 + Spec.xorX.f i 1 * U.f 2 1)) := by
    intro i hi k hk
    obtain ⟨l, l1, l2, l3, l4, l5⟩ := a4 i hi
    have hlk : l = k := by rw [hk] at l1; exact_mod_cast l1.symm
    subst hlk
    have ev : ∀ j < 2, (Spec.dense n.output.actfunc.act U Spec.xorX).f i j = n.output.actfunc.act (U.f 0 j + (Spec.xorX.f i 0 * U.f 1 j + Spec.xorX.f i 1 * U.f 2 j)) := by
      intro j hj
      unfold Spec.dense
      rw [Mat.of_f' (by exact hi) (by omega), show Spec.xorX.nc = 2 from rfl, sum_range_succ, sum_range_succ, sum_range_zero, zero_add]
    constructor
    · intro h0
      subst h0
      have := l4 1 (by omega)
      rw [ev 0 (by omega), ev 1 (by omega)] at this
      exact hact.le_iff_le.1 this
    · intro h1
      subst h1
      have := l5 0 (by omega)
      rw [ev 0 (by omega), ev 1 (by omega)] at this
      exact hact.lt_iff_lt.1 this
  have x00 : Spec.xorX.f 0 0 = 0 := by unfold Spec.xorX; rw [Mat.of_f' (by omega) (by omega)]; simp
  have x01 : Spec.xorX.f 0 1 = 0 := by unfold Spec.xorX; rw [Mat.of_f' (by omega) (by omega)]; simp
  have x10 : Spec.xorX.f 1 0 = 0 := by unfold Spec.xorX; rw [Mat.of_f' (by omega) (by omega)]; simp
  have x11 : Spec.xorX.f 1 1 = 1 := by unfold Spec.xorX; rw [Mat.of_f' (by omega) (by omega)]; simp
  have x20 : Spec.xorX.f 2 0 = 1 := by unfold Spec.xorX; rw [Mat.of_f' (by omega) (by omega)]; simp
  have x21 : Spec.xorX.f 2 1 = 0 := by unfold Spec.xorX; rw [Mat.of_f' (by omega) (by omega)]; simp
  have x30 : Spec.xorX.f 3 0 = 1 := by unfold Spec.xorX; rw [Mat.of_f' (by omega) (by omega)]; simp
  have x31 : Spec.xorX.f 3 1 = 1 := by unfold Spec.xorX; rw [Mat.of_f' (by omega) (by omega)]; simp
  have k0 := (key 0 (by omega) 0 (by rw [r0]; norm_num)).1 rfl
  have k1 := (key 1 (by omega) 1 (by rw [r1]; norm_num)).2 rfl
  have k2 := (key 2 (by omega) 1 (by rw [r2]; norm_num)).2 rfl
  have k3 := (key 3 (by omega) 0 (by rw [r3]; norm_num)).1 rfl
  rw [x00, x01] at k0
  rw [x10, x11] at k1
  rw [x20, x21] at k2
  rw [x30, x31] at k3
  linarith

/-- A 2-2-2 rectifier network that solves xor: the hypothesis on the hidden activations in `C102_xor` is needed. -/
def xorNet : Net :=
  { result := .empty, cost := Quadratic.cost, costd := Quadratic.costd, input := exLayer Act.identity .empty, hidden := [7],
    output := { exLayer Act.sigmoid (Mat.of 3 2 (fun i j => if j = 0 then (if i = 0 then 1 / 2 else 0) else (if i = 0 then 0 else if i = 1 then 1 else -2))) with cost := Quadratic.cost, costd := Quadratic.costd, y := .empty } }

/-- Its hidden layer: `relu(a + b)` and `relu(a + b - 1)`. -/
def xorStore : Store := fun _ => ⟨exLayer Act.relu (Mat.of 3 2 (fun i j => if i = 0 then (if j = 0 then 0 else -1) else 1)), .dense⟩

theorem xorNet_wf : xorNet.WF xorStore 2 2 := by
  refine ⟨by simp [xorNet], fun _ _ => rfl, by omega, ?_⟩
  simp [Net.layers, Net.hiddenLayers, xorNet, xorStore, exLayer, Spec.Fits]

/-- **C102** (one nonlinear layer is enough for xor). A 2-2-2 network with rectifier hidden units and sigmoid outputs predicts all four classes right. -/
theorem C102_xor_relu (junk : Nat → Nat → ℝ) : ∃ r s' n', xorNet.predict junk xorStore Spec.xorX = .ok (r, s', n') ∧ r.f 0 0 = 0 ∧ r.f 1 0 = 1 ∧ r.f 2 0 = 1 ∧ r.f 3 0 = 0 := by
  obtain ⟨r, s', n', a1, a2, a3, -, a4⟩ := C32_predict (junk := junk) xorNet_wf (x := Spec.xorX) (by show 0 < 4; omega) rfl
  refine ⟨r, s', n', a1, ?_⟩
  have hp : xorNet.params xorStore = [(Act.relu.act, Mat.of 3 2 (fun i j => if i = 0 then (if j = 0 then 0 else -1) else 1)),
    (Act.sigmoid.act, Mat.of 3 2 (fun i j => if j = 0 then (if i = 0 then 1 / 2 else 0) else (if i = 0 then 0 else if i = 1 then 1 else -2)))] := rfl
  rw [hp] at a4
  have hact := Act.C26_sigmoid.2
  have hid : ∀ i < 4, ∀ j < 2, (Spec.dense Act.relu.act (Mat.of 3 2 (fun i j => if i = 0 then (if j = 0 then 0 else -1) else 1)) Spec.xorX).f i j =
      Act.relu.act ((if j = 0 then 0 else -1) + (Spec.xorX.f i 0 + Spec.xorX.f i 1)) := by
    intro i hi j hj
    unfold Spec.dense
    rw [Mat.of_f' (by exact hi) (by exact hj), show Spec.xorX.nc = 2 from rfl, sum_range_succ, sum_range_succ, sum_range_zero, zero_add, Mat.of_f' (by omega) hj, Mat.of_f' (by omega) hj, Mat.of_f' (by omega) hj]
    simp
  have hrelu : Act.relu.act 0 = 0 ∧ Act.relu.act 1 = 1 ∧ Act.relu.act 2 = 2 ∧ Act.relu.act (-1) = 0 := by
    refine ⟨?_, ?_, ?_, ?_⟩ <;> show (if _ then _ else _) = _ <;> norm_num
  have out : ∀ i < 4, ∀ h0 h1 : ℝ, Act.relu.act (0 + (Spec.xorX.f i 0 + Spec.xorX.f i 1)) = h0 → Act.relu.act (-1 + (Spec.xorX.f i 0 + Spec.xorX.f i 1)) = h1 →
      (h0 - 2 * h1 ≤ 1 / 2 → r.f i 0 = 0) ∧ (1 / 2 < h0 - 2 * h1 → r.f i 0 = 1) := by
    intro i hi h0 h1 e0 e1
    obtain ⟨k, k1, k2, k3, k4, k5⟩ := a4 i hi
    have d0 := hid i hi 0 (by omega)
    rw [if_pos rfl, e0] at d0
    have d1 := hid i hi 1 (by omega)
    rw [if_neg (by omega : ¬ (1 = 0)), e1] at d1
    have ev : ∀ j < 2, (Spec.denseNet [(Act.relu.act, Mat.of 3 2 (fun i j => if i = 0 then (if j = 0 then 0 else -1) else 1)),
        (Act.sigmoid.act, Mat.of 3 2 (fun i j => if j = 0 then (if i = 0 then 1 / 2 else 0) else (if i = 0 then 0 else if i = 1 then 1 else -2)))] Spec.xorX).f i j =
        Act.sigmoid.act (if j = 0 then 1 / 2 else h0 - 2 * h1) := by
      intro j hj
      show (Spec.dense Act.sigmoid.act _ (Spec.dense Act.relu.act _ Spec.xorX)).f i j = _
      rw [dense_at (by exact hi) (by exact hj)]
      rw [show (Spec.dense Act.relu.act (Mat.of 3 2 (fun i j => if i = 0 then (if j = 0 then 0 else -1) else 1)) Spec.xorX).nc = 2 from rfl] 
      rw [sum_range_succ, sum_range_succ, sum_range_zero, zero_add, d0, d1, Mat.of_f' (by omega) hj, Mat.of_f' (by omega) hj, Mat.of_f' (by omega) hj]
      congr 1
      split <;> simp <;> ring
    constructor
    · intro hle
      rcases (show k = 0 ∨ k = 1 by omega) with rfl | rfl
      · rw [k1]; norm_num
      · have := k5 0 (by omega)
        rw [ev 0 (by omega), ev 1 (by omega)] at this
        have := hact.lt_iff_lt.1 this
        simp at this
        linarith
    · intro hlt
      rcases (show k = 0 ∨ k = 1 by omega) with rfl | rfl
      · have := k4 1 (by omega)
        rw [ev 0 (by omega), ev 1 (by omega)] at this
        have := hact.le_iff_le.1 this
        simp at this
        linarith
      · rw [k1]; norm_num
  have x00 : Spec.xorX.f 0 0 = 0 := by unfold Spec.xorX; rw [Mat.of_f' (by omega) (by omega)]; simp
  have x01 : Spec.xorX.f 0 1 = 0 := by unfold Spec.xorX; rw [Mat.of_f' (by omega) (by omega)]; simp
  have x10 : Spec.xorX.f 1 0 = 0 := by unfold Spec.xorX; rw [Mat.of_f' (by omega) (by omega)]; simp
  have x11 : Spec.xorX.f 1 1 = 1 := by unfold Spec.xorX; rw [Mat.of_f' (by omega) (by omega)]; simp
  have x20 : Spec.xorX.f 2 0 = 1 := by unfold Spec.xorX; rw [Mat.of_f' (by omega) (by omega)]; simp
  have x21 : Spec.xorX.f 2 1 = 0 := by unfold Spec.xorX; rw [Mat.of_f' (by omega) (by omega)]; simp
  have x30 : Spec.xorX.f 3 0 = 1 := by unfold Spec.xorX; rw [Mat.of_f' (by omega) (by omega)]; simp
  have x31 : Spec.xorX.f 3 1 = 1 := by unfold Spec.xorX; rw [Mat.of_f' (by omega) (by omega)]; simp
  obtain ⟨ra, rb, rc, rd⟩ := hrelu
  refine ⟨(out 0 (by omega) 0 0 (by rw [x00, x01]; norm_num [ra]) (by rw [x00, x01]; norm_num [rd])).1 (by norm_num), (out 1 (by omega) 1 0 (by rw [x10, x11]; norm_num [rb]) (by rw [x10, x11]; norm_num [ra])).2 (by norm_num),
    (out 2 (by omega) 1 0 (by rw [x20, x21]; norm_num [rb]) (by rw [x20, x21]; norm_num [ra])).2 (by norm_num), (out 3 (by omega) 2 1 (by rw [x30, x31]; norm_num [rc]) (by rw [x30, x31]; norm_num [rb])).1 (by norm_num)⟩

/-- The hypotheses of `C102_collapse` and `C102_xor` hold of that network with the identity in the place of the rectifier. -/
example : ∃ s n, Net.WF s n 2 2 ∧ n.hidden = [7] ∧ (∀ L ∈ n.hiddenLayers s, L.actfunc.act = id) ∧ StrictMono n.output.actfunc.act := by
  refine ⟨fun _ => ⟨exLayer Act.identity (Mat.of 3 2 (fun i j => if i = 0 then (if j = 0 then 0 else -1) else 1)), .dense⟩, xorNet, ⟨by simp [xorNet], fun _ _ => rfl, by omega, ?_⟩, rfl, ?_, Act.C26_sigmoid.2⟩
  · simp [Net.layers, Net.hiddenLayers, xorNet, exLayer, Spec.Fits]
  · intro L hL
    simp only [Net.hiddenLayers, xorNet, List.map_cons, List.map_nil, List.mem_singleton] at hL
    subst hL
    rfl

end
end Nnet.NN
