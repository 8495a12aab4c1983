import Verif.NN.PropsForward
import Mathlib.Tactic.Ring
import Mathlib.Tactic.FieldSimp
/-!
# C119: the units in which features are measured
-/
namespace Nnet.NN
open Finset
noncomputable section

/-- Weights of a first layer for features measured as `a k * v + b k` instead of `v`. -/
def Spec.rescaled (a b : Nat → ℝ) (W : Mat ℝ) : Mat ℝ :=
  Mat.of W.nr W.nc (fun i j => if i = 0 then W.f 0 j - ∑ k ∈ range (W.nr - 1), b k / a k * W.f (k + 1) j else W.f i j / a (i - 1))

theorem dense_units {act : ℝ → ℝ} {a b : Nat → ℝ} {W x x' : Mat ℝ} {p : Nat} (ha : ∀ k < p, a k ≠ 0) (hW : W.nr = p + 1) (hc : x.nc = p) (hc' : x'.nc = p) (hr : x'.nr = x.nr)
    (hx : ∀ i < x.nr, ∀ k < p, x'.f i k = a k * x.f i k + b k) : Spec.dense act (Spec.rescaled a b W) x' = Spec.dense act W x := by
  unfold Spec.dense
  rw [hr]
  show Mat.of x.nr W.nc _ = _
  refine Mat.of_congr (fun i j hi hj => ?_)
  congr 1
  unfold Spec.rescaled
  rw [Mat.of_f' (by omega) hj, if_pos rfl, hc, hc', hW, Nat.add_sub_cancel, sub_add, ← sum_sub_distrib, sub_eq_add_neg, ← sum_neg_distrib]
  congr 1
  refine sum_congr rfl (fun k hk => ?_)
  have hk := mem_range.1 hk
  rw [Mat.of_f' (by omega) hj, if_neg (by omega), Nat.add_sub_cancel, hx i hi k hk]
  have := ha k hk
  field_simp
  ring

/-- **C119**. For every network and every change of units of its features (`v` becomes `a k * v + b k`, with `a k ≠ 0`) there is a network with the same activations, costs and sizes, and the same layers
but for the weights of the first one, that gives for all data in the new units the outputs and predictions which the network gives for the data in the old ones. -/
theorem C119_units {s : Store} {n : Net} {p q : Nat} (h : n.WF s p q) (a b : Nat → ℝ) (ha : ∀ k < p, a k ≠ 0) :
    ∃ (s' : Store) (n' : Net), n'.WF s' p q ∧ n'.hidden = n.hidden ∧ (n'.layers s').tail = (n.layers s).tail ∧
      (∀ L ∈ (n.layers s).head?, (n'.layers s').head? = some { L with W := Spec.rescaled a b L.W }) ∧
      ∀ (junk junk' : Nat → Nat → ℝ) (x x' : Mat ℝ), 0 < x.nr → x.nc = p → x'.nr = x.nr → x'.nc = p → (∀ i < x.nr, ∀ k < p, x'.f i k = a k * x.f i k + b k) →
        (∃ out s1 n1 s2 n2, n.forwardprop junk s x = .ok (out, s1, n1) ∧ n'.forwardprop junk' s' x' = .ok (out, s2, n2)) ∧
        ∃ r r' s1 n1 s2 n2, n.predict junk s x = .ok (r, s1, n1) ∧ n'.predict junk' s' x' = .ok (r', s2, n2) ∧ ∀ i < x.nr, r.f i 0 = r'.f i 0 ∧ r.f i 1 = r'.f i 1 := by
  obtain ⟨s', n', hwf, hhid, htail, hhead⟩ : ∃ (s' : Store) (n' : Net), n'.WF s' p q ∧ n'.hidden = n.hidden ∧ (n'.layers s').tail = (n.layers s).tail ∧
      (∀ L ∈ (n.layers s).head?, (n'.layers s').head? = some { L with W := Spec.rescaled a b L.W }) := by
    cases hh : n.hidden with
    | nil =>
      refine ⟨s, { n with output := { n.output with W := Spec.rescaled a b n.output.W } }, ⟨?_, ?_, h.pos, ?_⟩, hh, ?_, ?_⟩
      · show n.hidden.Nodup
        exact h.nodup
      · show ∀ id ∈ n.hidden, _
        exact h.dense
      · have := h.fits
        simp only [Net.layers, Net.hiddenLayers, hh, List.map_nil, List.nil_append, List.map_cons] at this ⊢
        exact this
      · simp [Net.layers, Net.hiddenLayers, hh]
      · intro L hL
        simp only [Net.layers, Net.hiddenLayers, hh, List.map_nil, List.nil_append, List.head?_cons, Option.mem_def, Option.some.injEq] at hL ⊢
        rw [← hL]
    | cons id ids =>
      have hnd := h.nodup
      rw [hh] at hnd
      have hne : ∀ j ∈ ids, j ≠ id := fun j hj e => (List.nodup_cons.1 hnd).1 (e ▸ hj)
      have hk : ∀ j, (Function.update s id ⟨{ (s id).base with W := Spec.rescaled a b (s id).base.W }, (s id).kind⟩ j).kind = (s j).kind := fun j => by
        by_cases hj : j = id
        · subst hj; rw [Function.update_self]
        · rw [Function.update_of_ne hj]
      have hmap : ids.map (fun j => (Function.update s id ⟨{ (s id).base with W := Spec.rescaled a b (s id).base.W }, (s id).kind⟩ j).base) = ids.map (fun j => (s j).base) :=
        List.map_congr_left (fun j hj => by rw [Function.update_of_ne (hne j hj)])
      refine ⟨Function.update s id ⟨{ (s id).base with W := Spec.rescaled a b (s id).base.W }, (s id).kind⟩, n, ⟨h.nodup, fun j hj => by rw [hk]; exact h.dense j hj, h.pos, ?_⟩, hh, ?_, ?_⟩
      · have := h.fits
        simp only [Net.layers, Net.hiddenLayers, hh, List.map_cons, List.cons_append, hmap, Function.update_self] at this ⊢
        exact this
      · simp only [Net.layers, Net.hiddenLayers, hh, List.map_cons, List.cons_append, hmap, List.tail_cons]
      · intro L hL
        simp only [Net.layers, Net.hiddenLayers, hh, List.map_cons, List.cons_append, List.head?_cons, Option.mem_def, Option.some.injEq, Function.update_self] at hL ⊢
        rw [← hL]
  refine ⟨s', n', hwf, hhid, htail, hhead, fun junk junk' x x' hr hc hr' hc' hx => ?_⟩
  have key : Spec.denseNet (n'.params s') x' = Spec.denseNet (n.params s) x := by
    unfold Net.params
    have hf := h.fits
    cases hl : n.layers s with
    | nil => simp [Net.layers] at hl
    | cons L Ls =>
      have h1 := hhead L (by rw [hl]; rfl)
      rw [hl] at htail hf
      cases hl' : n'.layers s' with
      | nil => simp [Net.layers] at hl'
      | cons L' Ls' =>
        rw [hl'] at h1 htail
        simp only [List.head?_cons, Option.some.injEq] at h1
        simp only [List.tail_cons] at htail
        subst h1 htail
        show Spec.denseNet _ (Spec.dense L.actfunc.act (Spec.rescaled a b L.W) x') = Spec.denseNet _ (Spec.dense L.actfunc.act L.W x)
        rw [dense_units ha hf.1 hc hc' hr' hx]
  refine ⟨?_, ?_⟩
  · obtain ⟨s1, n1, e1, -⟩ := C28_network (junk := junk) h hr hc
    obtain ⟨s2, n2, e2, -⟩ := C28_network (junk := junk') (x := x') hwf (by omega) hc'
    rw [key] at e2
    exact ⟨_, s1, n1, s2, n2, e1, e2⟩
  · obtain ⟨r, s1, n1, e1, -, -, -, k1⟩ := C32_predict (junk := junk) h hr hc
    obtain ⟨r', s2, n2, e2, -, -, -, k2⟩ := C32_predict (junk := junk') (x := x') hwf (by omega) hc'
    refine ⟨r, r', s1, n1, s2, n2, e1, e2, fun i hi => ?_⟩
    rw [key] at k2
    obtain ⟨c, a1, a2, a3, a4, a5⟩ := k1 i hi
    obtain ⟨c', b1, b2, b3, b4, b5⟩ := k2 i (by omega)
    have : c = c' := by
      rcases Nat.lt_trichotomy c c' with hlt | he | hgt
      · exact absurd (a4 c' b3) (not_le.2 (b5 c hlt))
      · exact he
      · exact absurd (b4 c a3) (not_le.2 (a5 c' hgt))
    rw [a1, a2, b1, b2, this]
    exact ⟨rfl, rfl⟩

/-- A case of the hypotheses: Celsius to Fahrenheit for both features. -/
example := C119_units exNet_wf (fun _ => 9 / 5) (fun _ => 32) (fun _ _ => by norm_num)

end
end Nnet.NN
