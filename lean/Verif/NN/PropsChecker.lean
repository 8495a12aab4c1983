import Verif.NN.Checker
import Verif.NN.PropsBatchCost
import Verif.NN.PropsInit
import Verif.NN.PropsSafe
/-!
# C61: the gradient checker of the test suite
-/
namespace Nnet.NN
open Finset
noncomputable section
open Spec

/-! ## Specification -/

/-- The weights `W` with `d` added to the weight at position `l` of the memory (column by column) and one millionth subtracted from the weights before it. -/
def Spec.shifted (W : Mat ℝ) (l : Nat) (d : ℝ) : Mat ℝ :=
  Mat.of W.nr W.nc (fun a b => if a + b * W.nr < l then W.f a b - 1 / 1000000 else if a + b * W.nr = l then W.f a b + d else W.f a b)

/-- The cost of the network on `(x, y)` if hidden layer `i` had the weights `V`. -/
def Spec.lossWith (s : Store) (n : Net) (x y : Mat ℝ) (i : Nat) (V : Mat ℝ) : Res ℝ := do
  let J ← n.cost y (Spec.denseNet ((n.params s).modify i (fun p => (p.1, V))) x)
  .ok (sumall J)

/-- A cost that does not fail on a label and a prediction of one shape. -/
def Spec.Total (cost : MatFunc) : Prop := ∀ y h : Mat ℝ, y.nr = h.nr → y.nc = h.nc → ∃ M, cost y h = .ok M

/-! ## Lemmas -/

theorem setLin_ok {m : Mat ℝ} {l : Nat} {v : ℝ} (h : l < m.nr * m.nc) :
    m.setLin l v = .ok (Mat.of m.nr m.nc (fun a b => if a = l % m.nr ∧ b = l / m.nr then v else m.f a b)) := if_pos h

theorem lin_ok {m : Mat ℝ} {l : Nat} (h : l < m.nr * m.nc) : m.lin l = .ok (m.f (l % m.nr) (l / m.nr)) := if_pos h

theorem lin_bounds {r c l : Nat} (h : l < r * c) : l % r < r ∧ l / r < c := by
  have hr : 0 < r := by
    rcases Nat.eq_zero_or_pos r with h0 | h0
    · subst h0; simp at h
    · exact h0
  exact ⟨Nat.mod_lt _ hr, Nat.div_lt_of_lt_mul h⟩

theorem lin_eq_iff {r l a b : Nat} (ha : a < r) : (a = l % r ∧ b = l / r) ↔ a + b * r = l := by
  constructor
  · rintro ⟨h1, h2⟩
    subst h1; subst h2
    rw [Nat.mul_comm]; exact Nat.mod_add_div l r
  · intro h
    subst h
    rw [Nat.add_mul_mod_self_right, Nat.mod_eq_of_lt ha, Nat.add_mul_div_right _ _ (by omega), Nat.div_eq_of_lt ha]
    exact ⟨rfl, by omega⟩

theorem shifted_f {W : Mat ℝ} {l : Nat} {d : ℝ} {a b : Nat} (ha : a < W.nr) (hb : b < W.nc) :
    (shifted W l d).f a b = if a + b * W.nr < l then W.f a b - 1 / 1000000 else if a + b * W.nr = l then W.f a b + d else W.f a b := Mat.of_f' ha hb

theorem lin_back {r c l : Nat} (h : l < r * c) : l % r + l / r * r = l := (lin_eq_iff (lin_bounds h).1).1 ⟨rfl, rfl⟩

/-- Changing the entry at the position of the shift. -/
theorem shifted_set {W : Mat ℝ} {l : Nat} (hl : l < W.nr * W.nc) (d e : ℝ) :
    (shifted W l d).setLin l ((shifted W l d).f (l % W.nr) (l / W.nr) + e) = .ok (shifted W l (d + e)) := by
  rw [setLin_ok (by exact hl)]
  congr 1
  refine Mat.of_congr fun a b ha hb => ?_
  replace ha : a < W.nr := ha
  replace hb : b < W.nc := hb
  obtain ⟨l1, l2⟩ := lin_bounds hl
  by_cases hk : a = l % W.nr ∧ b = l / W.nr
  · rw [if_pos (by exact hk), shifted_f l1 l2, lin_back hl, if_neg (by omega), if_pos rfl, if_neg (by rw [(lin_eq_iff ha).1 hk]; omega), if_pos ((lin_eq_iff ha).1 hk), hk.1, hk.2]
    ring
  · have hne : a + b * W.nr ≠ l := fun h => hk ((lin_eq_iff ha).2 h)
    rw [if_neg (by exact hk), shifted_f ha hb]
    simp only [if_neg hne]

theorem shifted_zero (W : Mat ℝ) : shifted W 0 0 = W := by
  refine Mat.ext' rfl rfl fun a b ha hb => ?_
  rw [shifted_f (by exact ha) (by exact hb), if_neg (by omega)]
  split
  · ring
  · rfl

theorem shifted_next {W : Mat ℝ} {l : Nat} : shifted W l (-(1 / 1000000)) = shifted W (l + 1) 0 := by
  refine Mat.of_congr fun a b ha hb => ?_
  by_cases h1 : a + b * W.nr < l
  · rw [if_pos h1, if_pos (by omega)]
  · by_cases h2 : a + b * W.nr = l
    · rw [if_neg h1, if_pos h2, if_pos (by omega)]; ring
    · rw [if_neg h1, if_neg h2, if_neg (by omega)]
      split
      · ring
      · rfl

abbrev Core := ℝ × ℝ × ActFunc ℝ × Mat ℝ

/-- The same layer data with other weights. -/
def Core.setW (V : Mat ℝ) (c : Core) : Core := (c.1, c.2.1, c.2.2.1, V)

/-- The state `(s, n)` has the configuration of `(s0, n0)`, and its hidden layers have the data `C`. -/
structure Net.At (s0 : Store) (n0 : Net) (C : List Core) (s : Store) (n : Net) : Prop where
  conf : n0.SameConf n
  dense : ∀ id ∈ n0.hidden, (s id).kind = .dense
  frame : ∀ r, r ∉ n0.hidden → s r = s0 r
  cores : (n.hiddenLayers s).map Layer.core = C
  out : n.output.toLayer.core = n0.output.toLayer.core
  gdims : (n.hiddenLayers s).map (fun L => (L.grad.nr, L.grad.nc)) = C.map (fun c => (c.2.2.2.nr, c.2.2.2.nc))

theorem fits_of_dims : ∀ {Ws Vs : List (Mat ℝ)} {p q : Nat}, Ws.map (fun m => (m.nr, m.nc)) = Vs.map (fun m => (m.nr, m.nc)) → Spec.Fits p Ws q → Spec.Fits p Vs q
  | [], [], _, _, _, h => h
  | [], _ :: _, _, _, h, _ => by simp at h
  | _ :: _, [], _, _, h, _ => by simp at h
  | W :: Ws, V :: Vs, p, q, h, hf => by
    simp only [List.map_cons, List.cons.injEq, Prod.mk.injEq] at h
    obtain ⟨h1, h2, h3⟩ := hf
    refine ⟨by rw [← h.1.1]; exact h1, by rw [← h.1.2]; exact h2, ?_⟩
    rw [← h.1.2]
    exact fits_of_dims h.2 h3

/-- Hidden data `C` have the shapes of the hidden layers of `(s0, n0)`. -/
def SameDims (s0 : Store) (n0 : Net) (C : List Core) : Prop :=
  C.map (fun c => (c.2.2.2.nr, c.2.2.2.nc)) = (n0.hiddenLayers s0).map (fun L => (L.W.nr, L.W.nc))

theorem Net.At.wf {s0 s : Store} {n0 n : Net} {C : List Core} {p q : Nat} (h : Net.At s0 n0 C s n) (hw : n0.WF s0 p q) (hC : SameDims s0 n0 C) : n.WF s p q := by
  refine ⟨by rw [h.conf.hidden]; exact hw.nodup, by rw [h.conf.hidden]; exact h.dense, hw.pos, fits_of_dims ?_ hw.fits⟩
  unfold Net.layers
  rw [List.map_append, List.map_append, List.map_append, List.map_append]
  congr 1
  · have := congrArg (List.map (fun c : Core => (c.2.2.2.nr, c.2.2.2.nc))) h.cores
    rw [List.map_map] at this
    unfold SameDims at hC
    rw [List.map_map, List.map_map]
    show (n0.hiddenLayers s0).map (fun L => (L.W.nr, L.W.nc)) = _
    rw [← hC, ← this]
    rfl
  · have hW : n.output.W = n0.output.W := congrArg (fun c : Core => c.2.2.2) h.out
    simp only [List.map_cons, List.map_nil]
    rw [hW]

/-- Layer data as activation and weights. -/
def Core.actW (c : Core) : (ℝ → ℝ) × Mat ℝ := (c.2.2.1.act, c.2.2.2)

theorem Net.At.params {s0 s : Store} {n0 n : Net} {C : List Core} (h : Net.At s0 n0 C s n) : n.params s = C.map Core.actW ++ [Core.actW n0.output.toLayer.core] := by
  unfold Net.params Net.layers
  rw [List.map_append, ← h.cores, List.map_map, ← h.out]
  rfl

theorem Net.At.forward {junk : Nat → Nat → ℝ} {s0 s : Store} {n0 n : Net} {C : List Core} {p q : Nat} {x : Mat ℝ} (h : Net.At s0 n0 C s n) (hw : n0.WF s0 p q)
    (hC : SameDims s0 n0 C) (hr : 0 < x.nr) (hc : x.nc = p) :
    ∃ s' n', n.forwardprop junk s x = .ok (Spec.denseNet (C.map Core.actW ++ [Core.actW n0.output.toLayer.core]) x, s', n') ∧ Net.At s0 n0 C s' n' := by
  obtain ⟨s', n', e, hb, -⟩ := Net.forwardprop_ok (junk := junk) (h.wf hw hC) hr hc
  have hlay := hb.layers
  unfold Net.layers at hlay
  rw [fwdL_append] at hlay
  obtain ⟨l1, l2⟩ := List.append_inj' hlay rfl
  refine ⟨s', n', ?_, h.conf.trans hb.conf, fun id hid => hb.dense id (by rw [h.conf.hidden]; exact hid), fun r hr => ?_, ?_, ?_, ?_⟩
  · rw [e, outL_eq_denseNet, ← h.params]; rfl
  · rw [hb.frame r (by rw [h.conf.hidden]; exact hr), h.frame r hr]
  · rw [l1, fwdL_core, h.cores]
  · rw [List.singleton_injective l2]; exact h.out
  · rw [l1, ← h.gdims]
    have : ∀ (Ls : List Layer) (x : Mat ℝ), (fwdL Ls x).map (fun L => (L.grad.nr, L.grad.nc)) = Ls.map (fun L => (L.grad.nr, L.grad.nc)) := by
      intro Ls
      induction Ls with
      | nil => intro x; rfl
      | cons L Ls ih => intro x; show _ :: _ = _ :: _; rw [ih]; rfl
    exact this _ _

theorem Net.At.set {s0 s : Store} {n0 n : Net} {C : List Core} {p q i : Nat} {V : Mat ℝ} (h : Net.At s0 n0 C s n) (hw : n0.WF s0 p q) (hi : i < n0.hidden.length)
    (hV : ∀ c, C[i]? = some c → V.nr = c.2.2.2.nr ∧ V.nc = c.2.2.2.nc) :
    ∃ s', n.sethiddenw s i V = .ok s' ∧ Net.At s0 n0 (C.modify i (Core.setW V)) s' n := by
  have hi' : i < n.hidden.length := by rw [h.conf.hidden]; exact hi
  have hnd : n.hidden.Nodup := by rw [h.conf.hidden]; exact hw.nodup
  have hg : n.hidden[i]? = some n.hidden[i] := List.getElem?_eq_getElem hi'
  refine ⟨s.put n.hidden[i] ((s n.hidden[i]).setw V), ?_, ?_⟩
  · unfold Net.sethiddenw
    rw [vecAt_some hg]; rfl
  have hmod : n.hiddenLayers (s.put n.hidden[i] ((s n.hidden[i]).setw V)) = (n.hiddenLayers s).modify i (fun L => L.setw V) := by
    unfold Net.hiddenLayers
    refine List.ext_getElem? fun k => ?_
    rw [List.getElem?_map, List.getElem?_modify, List.getElem?_map]
    rcases hk : n.hidden[k]? with _ | r
    · simp
    · simp only [Option.map_some]
      by_cases hik : i = k
      · subst hik
        rw [hg] at hk; cases hk
        simp [Store.put, HLayer.setw]
      · simp only [if_neg hik]
        show some ((s.put n.hidden[i] ((s n.hidden[i]).setw V)) r).base = some (s r).base
        rw [put_other]
        intro hr
        have hkl : k < n.hidden.length := (List.getElem?_eq_some_iff.1 hk).1
        have : n.hidden[k] = n.hidden[i] := by
          rw [List.getElem?_eq_getElem hkl] at hk
          exact (Option.some.inj hk).trans hr
        exact hik ((List.Nodup.getElem_inj_iff hnd).1 this).symm
  refine ⟨h.conf, fun id hid => ?_, fun r hr => ?_, ?_, h.out, ?_⟩
  · by_cases e : id = n.hidden[i]
    · subst e
      rw [put_same]
      exact h.dense _ hid
    · rw [put_other e]
      exact h.dense id hid
  · rw [put_other (fun e => hr (by rw [e, ← h.conf.hidden]; exact List.getElem_mem hi'))]
    exact h.frame r hr
  · rw [hmod, ← h.cores]
    refine List.ext_getElem? fun k => ?_
    simp only [List.getElem?_map, List.getElem?_modify]
    rcases hk : (n.hiddenLayers s)[k]? with _ | L
    · simp
    · by_cases hik : i = k <;> simp [hik, Layer.core, Core.setW, Layer.setw]
  · rw [hmod]
    refine List.ext_getElem? fun k => ?_
    have hgk := congrArg (fun l : List (Nat × Nat) => l[k]?) h.gdims
    simp only [List.getElem?_map, List.getElem?_modify] at hgk ⊢
    by_cases hik : i = k
    · subst hik
      rcases hk : (n.hiddenLayers s)[i]? with _ | L
      · rw [hk] at hgk
        rcases hc : C[i]? with _ | c
        · simp
        · rw [hc] at hgk; simp at hgk
      · rw [hk] at hgk
        rcases hc : C[i]? with _ | c
        · rw [hc] at hgk; simp at hgk
        · rw [hc] at hgk
          obtain ⟨v1, v2⟩ := hV c hc
          simp only [Option.map_some, Option.some.injEq] at hgk
          simp [Layer.setw, Core.setW, v1, v2, ← hgk]
    · simp only [if_neg hik]
      show Option.map _ (Option.map (fun a => a) _) = Option.map _ (Option.map (fun a => a) _)
      rw [Option.map_id', Option.map_id']
      exact hgk

theorem modify_modify (C : List Core) (i : Nat) (V V' : Mat ℝ) : (C.modify i (Core.setW V)).modify i (Core.setW V') = C.modify i (Core.setW V') := by
  refine List.ext_getElem? fun k => ?_
  simp only [List.getElem?_modify]
  by_cases hik : i = k
  · simp only [if_pos hik]
    rcases C[k]? with _ | c <;> rfl
  · simp only [if_neg hik]
    rcases C[k]? with _ | c <;> rfl

theorem modify_self {C : List Core} {i : Nat} {c : Core} (h : C[i]? = some c) : C.modify i (Core.setW c.2.2.2) = C := by
  refine List.ext_getElem? fun k => ?_
  simp only [List.getElem?_modify]
  by_cases hik : i = k
  · subst hik; rw [h]; simp [Core.setW]
  · simp only [if_neg hik]
    rcases C[k]? with _ | c <;> rfl

theorem sameDims_modify {s0 : Store} {n0 : Net} {C : List Core} {i : Nat} {c : Core} {V : Mat ℝ} (hC : SameDims s0 n0 C) (h : C[i]? = some c) (h1 : V.nr = c.2.2.2.nr) (h2 : V.nc = c.2.2.2.nc) :
    SameDims s0 n0 (C.modify i (Core.setW V)) := by
  unfold SameDims at hC ⊢
  rw [← hC]
  refine List.ext_getElem? fun k => ?_
  simp only [List.getElem?_modify, List.getElem?_map]
  by_cases hik : i = k
  · subst hik; rw [h]; simp [Core.setW, h1, h2]
  · simp only [if_neg hik]
    rcases C[k]? with _ | c <;> rfl

/-- The loss of the network with hidden data `C`. -/
def lossC (n0 : Net) (x y : Mat ℝ) (C : List Core) : Res ℝ := do
  let J ← n0.cost y (Spec.denseNet (C.map Core.actW ++ [Core.actW n0.output.toLayer.core]) x)
  .ok (sumall J)

theorem denseNet_dims : ∀ {ls : List ((ℝ → ℝ) × Mat ℝ)} {x : Mat ℝ} {q : Nat}, Spec.Fits x.nc (ls.map (·.2)) q → (Spec.denseNet ls x).nr = x.nr ∧ (Spec.denseNet ls x).nc = q
  | [], x, q, h => ⟨rfl, h⟩
  | (act, W) :: ls, x, q, h => denseNet_dims (ls := ls) (x := Spec.dense act W x) h.2.2

/-- The context of one run of the checker. -/
structure Ctx (s0 : Store) (n0 : Net) (p q : Nat) (x y : Mat ℝ) : Prop where
  wf : n0.WF s0 p q
  xr : x.nr = 1
  xc : x.nc = p
  yr : y.nr = 1
  yc : y.nc = q
  total : Spec.Total n0.cost

theorem Net.At.loss {junk : Nat → Nat → ℝ} {s0 s : Store} {n0 n : Net} {C : List Core} {p q : Nat} {x y : Mat ℝ} (h : Net.At s0 n0 C s n) (hw : Ctx s0 n0 p q x y)
    (hC : SameDims s0 n0 C) : ∃ out s' n' v, n.forwardprop junk s x = .ok (out, s', n') ∧ n'.computecost out y = .ok v ∧ lossC n0 x y C = .ok v ∧ Net.At s0 n0 C s' n' := by
  obtain ⟨s', n', e, h'⟩ := h.forward (junk := junk) hw.wf hC (by rw [hw.xr]; omega) hw.xc
  have hf := (h.wf hw.wf hC).fits
  have hd := denseNet_dims (ls := n.params s) (x := x) (q := q) (by
    rw [hw.xc]
    unfold Net.params
    rw [List.map_map]
    exact hf)
  rw [h.params] at hd
  obtain ⟨M, hM⟩ := hw.total y _ (by rw [hd.1, hw.yr, hw.xr]) (by rw [hd.2, hw.yc])
  refine ⟨_, s', n', sumall M, e, ?_, ?_, h'⟩
  · unfold Net.computecost
    rw [h'.conf.cost, hM, ok_bind]
  · unfold lossC
    rw [hM, ok_bind]

/-- One pass of the inner loop of `check`. -/
theorem checkEntry_ok {junk : Nat → Nat → ℝ} {s0 s : Store} {n0 n : Net} {C : List Core} {p q i j k : Nat} {x y gradient : Mat ℝ} {c : Core} (h : Net.At s0 n0 C s n) (hw : Ctx s0 n0 p q x y)
    (hC : SameDims s0 n0 C) (hi : i < n0.hidden.length) (hc : C[i]? = some c) (hj : j < c.2.2.2.nr) (hk : k < c.2.2.2.nc) (hg1 : gradient.nr = c.2.2.2.nr) (hg2 : gradient.nc = c.2.2.2.nc) :
    ∃ s' n' l1 l2, lossC n0 x y (C.modify i (Core.setW (shifted c.2.2.2 (j * c.2.2.2.nc + k) (1 / 1000000)))) = .ok l1 ∧
      lossC n0 x y (C.modify i (Core.setW (shifted c.2.2.2 (j * c.2.2.2.nc + k) (-(1 / 1000000))))) = .ok l2 ∧
      Checker.checkEntry junk x y i c.2.2.2 j k ⟨shifted c.2.2.2 (j * c.2.2.2.nc + k) 0, gradient, s, n⟩ =
        .ok ⟨shifted c.2.2.2 (j * c.2.2.2.nc + k + 1) 0,
          Mat.of gradient.nr gradient.nc (fun a b => if a + b * gradient.nr = j * c.2.2.2.nc + k then (l1 - l2) / (2 * (1 / 1000000)) else gradient.f a b), s', n'⟩ ∧
      Net.At s0 n0 C s' n' := by
  generalize hl : j * c.2.2.2.nc + k = l at *
  generalize hW : c.2.2.2 = W at *
  have hlt : l < W.nr * W.nc := by
    rw [← hl]
    calc j * W.nc + k < j * W.nc + W.nc := by omega
      _ = (j + 1) * W.nc := by ring
      _ ≤ W.nr * W.nc := Nat.mul_le_mul_right _ (by omega)
  -- first
  obtain ⟨s1, e1, a1⟩ := h.set (V := shifted W l (1 / 1000000)) hw.wf hi (fun c' hc' => by rw [hc] at hc'; cases hc'; rw [hW]; exact ⟨rfl, rfl⟩)
  have d1 : SameDims s0 n0 (C.modify i (Core.setW (shifted W l (1 / 1000000)))) := sameDims_modify hC hc (by rw [hW]; rfl) (by rw [hW]; rfl)
  obtain ⟨o1, s2, n2, l1, e2, e3, e4, a2⟩ := a1.loss (junk := junk) hw d1
  have hc2 : (C.modify i (Core.setW (shifted W l (1 / 1000000))))[i]? = some (Core.setW (shifted W l (1 / 1000000)) c) := by
    rw [List.getElem?_modify, hc]; simp
  obtain ⟨s3, e5, a3⟩ := a2.set (V := shifted W l (-(1 / 1000000))) hw.wf hi (fun c' hc' => by rw [hc2] at hc'; cases hc'; exact ⟨rfl, rfl⟩)
  rw [modify_modify] at a3
  have d3 : SameDims s0 n0 (C.modify i (Core.setW (shifted W l (-(1 / 1000000))))) := sameDims_modify hC hc (by rw [hW]; rfl) (by rw [hW]; rfl)
  obtain ⟨o2, s4, n4, l2, e6, e7, e8, a4⟩ := a3.loss (junk := junk) hw d3
  have hc4 : (C.modify i (Core.setW (shifted W l (-(1 / 1000000)))))[i]? = some (Core.setW (shifted W l (-(1 / 1000000))) c) := by
    rw [List.getElem?_modify, hc]; simp
  obtain ⟨s5, e9, a5⟩ := a4.set (V := W) hw.wf hi (fun c' hc' => by rw [hc4] at hc'; cases hc'; exact ⟨rfl, rfl⟩)
  rw [modify_modify, ← hW, modify_self hc] at a5
  refine ⟨s5, n4, l1, l2, e4, e8, ?_, a5⟩
  unfold Checker.checkEntry
  have r1 : (shifted W l 0).setLin l ((shifted W l 0).f (l % (shifted W l 0).nr) (l / (shifted W l 0).nr) + Checker.eps) = .ok (shifted W l (1 / 1000000)) := by
    have := shifted_set hlt 0 Checker.eps
    rw [show (0 : ℝ) + Checker.eps = 1 / 1000000 by unfold Checker.eps; norm_num] at this
    exact this
  have r2 : (shifted W l (1 / 1000000)).setLin l ((shifted W l (1 / 1000000)).f (l % (shifted W l (1 / 1000000)).nr) (l / (shifted W l (1 / 1000000)).nr) - 2 * Checker.eps) =
      .ok (shifted W l (-(1 / 1000000))) := by
    have := shifted_set hlt (1 / 1000000) (-(2 * Checker.eps))
    rw [show (1 / 1000000 : ℝ) + -(2 * Checker.eps) = -(1 / 1000000) by unfold Checker.eps; norm_num] at this
    exact this
  have i0 : j * (shifted W l 0).nc + k = l := hl
  have i1 : j * (shifted W l (1 / 1000000)).nc + k = l := hl
  simp only [i0]
  rw [lin_ok (by exact hlt), ok_bind, r1, ok_bind, e1, ok_bind, e2, ok_bind]
  simp only [i1]
  rw [e3, ok_bind, lin_ok (by exact hlt), ok_bind, r2, ok_bind, e5, ok_bind, e6, ok_bind]
  simp only
  rw [e7, ok_bind, e9, ok_bind, show j * gradient.nc + k = l by rw [hg2]; exact hl, setLin_ok (by rw [hg1, hg2]; exact hlt), ok_bind, shifted_next]
  refine congrArg (fun g => Except.ok (Checker.State.mk (shifted W (l + 1) 0) g s5 n4)) (Mat.of_congr fun a b ha hb => ?_)
  by_cases hk' : a + b * gradient.nr = l
  · rw [if_pos hk', if_pos ((lin_eq_iff ha).2 hk')]; rfl
  · rw [if_neg hk', if_neg (fun h' => hk' ((lin_eq_iff ha).1 h'))]

/-- The difference quotient the checker collects for position `l` of layer `i`. -/
def QuotC (n0 : Net) (x y : Mat ℝ) (C : List Core) (i : Nat) (W : Mat ℝ) (l : Nat) (v : ℝ) : Prop :=
  ∃ l1 l2, lossC n0 x y (C.modify i (Core.setW (shifted W l (1 / 1000000)))) = .ok l1 ∧
    lossC n0 x y (C.modify i (Core.setW (shifted W l (-(1 / 1000000))))) = .ok l2 ∧ v = (l1 - l2) / (2 * (1 / 1000000))

theorem pos_lt {r c a b : Nat} (ha : a < r) (hb : b < c) : a + b * r < r * c := by
  calc a + b * r < r + b * r := by omega
    _ = (b + 1) * r := by ring
    _ ≤ c * r := Nat.mul_le_mul_right _ (by omega)
    _ = r * c := Nat.mul_comm _ _

/-- The double loop of `check`. -/
theorem entries_ok {junk : Nat → Nat → ℝ} {s0 s : Store} {n0 n : Net} {C : List Core} {p q i : Nat} {x y gradient : Mat ℝ} {c : Core} (h : Net.At s0 n0 C s n) (hw : Ctx s0 n0 p q x y)
    (hC : SameDims s0 n0 C) (hi : i < n0.hidden.length) (hc : C[i]? = some c) (hg1 : gradient.nr = c.2.2.2.nr) (hg2 : gradient.nc = c.2.2.2.nc) :
    ∃ t, loop c.2.2.2.nr (fun j t => loop c.2.2.2.nc (fun k t => Checker.checkEntry junk x y i c.2.2.2 j k t) t) ⟨c.2.2.2, gradient, s, n⟩ = .ok t ∧
      Net.At s0 n0 C t.store t.net ∧ t.gradient.nr = c.2.2.2.nr ∧ t.gradient.nc = c.2.2.2.nc ∧
      ∀ a < c.2.2.2.nr, ∀ b < c.2.2.2.nc, QuotC n0 x y C i c.2.2.2 (a + b * c.2.2.2.nr) (t.gradient.f a b) := by
  let P : Nat → Checker.State → Prop := fun l t => t.perturb = shifted c.2.2.2 l 0 ∧ Net.At s0 n0 C t.store t.net ∧ t.gradient.nr = c.2.2.2.nr ∧ t.gradient.nc = c.2.2.2.nc ∧
    ∀ a < c.2.2.2.nr, ∀ b < c.2.2.2.nc, a + b * c.2.2.2.nr < l → QuotC n0 x y C i c.2.2.2 (a + b * c.2.2.2.nr) (t.gradient.f a b)
  obtain ⟨t, e, -, q2, q3, q4, q5⟩ := loop_inv (n := c.2.2.2.nr) (body := fun j t => loop c.2.2.2.nc (fun k t => Checker.checkEntry junk x y i c.2.2.2 j k t) t)
    (s := ⟨c.2.2.2, gradient, s, n⟩) (fun j t => P (j * c.2.2.2.nc) t)
    ⟨by rw [Nat.zero_mul, shifted_zero], h, hg1, hg2, fun a ha b hb hl => by omega⟩ (fun j t hj hP => by
      obtain ⟨t', e', hP'⟩ := loop_inv (n := c.2.2.2.nc) (body := fun k t => Checker.checkEntry junk x y i c.2.2.2 j k t) (s := t) (fun k t => P (j * c.2.2.2.nc + k) t)
        hP (fun k t hk hP => by
          obtain ⟨pt, g, s1, n1⟩ := t
          obtain ⟨p1, p2, p3, p4, p5⟩ := hP
          dsimp only at p1 p2 p3 p4 p5
          subst p1
          obtain ⟨s2, n2, l1, l2, f1, f2, f3, f4⟩ := checkEntry_ok (junk := junk) p2 hw hC hi hc hj hk p3 p4
          refine ⟨_, f3, rfl, f4, p3, p4, fun a ha b hb hl => ?_⟩
          dsimp only
          rw [Mat.of_f' (by omega) (by omega)]
          by_cases hk' : a + b * g.nr = j * c.2.2.2.nc + k
          · rw [if_pos hk']
            rw [p3] at hk'
            rw [hk']
            exact ⟨l1, l2, f1, f2, rfl⟩
          · rw [if_neg hk']
            rw [p3] at hk'
            exact p5 a ha b hb (by omega))
      refine ⟨t', e', ?_⟩
      rw [Nat.succ_mul]
      exact hP')
  exact ⟨t, e, q2, q3, q4, fun a ha b hb => q5 a ha b hb (pos_lt ha hb)⟩

/-- `issame` as it is written: true iff *every* pair of entries differs by at least one millionth. -/
theorem issame_ok {m1 m2 : Mat ℝ} (h1 : m1.nr = m2.nr) (h2 : m1.nc = m2.nc) :
    ∃ b, Checker.issame m1 m2 = .ok b ∧ (b = true ↔ ∀ i < m1.nr, ∀ j < m1.nc, 1 / 1000000 ≤ |m1.f i j - m2.f i j|) := by
  unfold Checker.issame
  rw [if_neg (by omega)]
  let P : Nat → Bool → Prop := fun l b => b = true ↔ ∀ a < m1.nr, ∀ c < m1.nc, a + c * m1.nr < l → 1 / 1000000 ≤ |m1.f a c - m2.f a c|
  obtain ⟨b, e, hb⟩ := loop_inv (n := m1.nr) (body := fun i same => loop m1.nc (fun j same => do
      let val1 ← m1.lin (i * m1.nc + j)
      let val2 ← m2.lin (i * m1.nc + j)
      .ok (if |val1 - val2| < 1 / 1000000 then false else same)) same) (s := true) (fun j b => P (j * m1.nc) b)
    (by
      show true = true ↔ _
      exact ⟨fun _ a _ c _ hl => by omega, fun _ => rfl⟩) (fun i b hi hP => by
      obtain ⟨b', e', hP'⟩ := loop_inv (n := m1.nc) (body := fun j same => do
          let val1 ← m1.lin (i * m1.nc + j)
          let val2 ← m2.lin (i * m1.nc + j)
          .ok (if |val1 - val2| < 1 / 1000000 then false else same)) (s := b) (fun k b => P (i * m1.nc + k) b) hP (fun k b hk hP => by
          have hlt : i * m1.nc + k < m1.nr * m1.nc := by
            calc i * m1.nc + k < i * m1.nc + m1.nc := by omega
              _ = (i + 1) * m1.nc := by ring
              _ ≤ m1.nr * m1.nc := Nat.mul_le_mul_right _ (by omega)
          show ∃ s', _ ∧ P (i * m1.nc + k + 1) s'
          generalize i * m1.nc + k = l at hlt hP ⊢
          replace hP : b = true ↔ ∀ a < m1.nr, ∀ c < m1.nc, a + c * m1.nr < l → 1 / 1000000 ≤ |m1.f a c - m2.f a c| := hP
          rw [lin_ok hlt, ok_bind, lin_ok (by rw [← h1, ← h2]; exact hlt), ok_bind, ← h1]
          obtain ⟨g1, g2⟩ := lin_bounds hlt
          refine ⟨_, rfl, ?_⟩
          show (if _ then false else b) = true ↔ _
          split
          · rename_i hlt'
            refine ⟨fun h => by simp at h, fun h => ?_⟩
            have := h _ g1 _ g2 (by rw [lin_back hlt]; omega)
            linarith
          · rename_i hge
            rw [hP]
            refine ⟨fun h a ha c hc hl' => ?_, fun h a ha c hc hl' => h a ha c hc (by omega)⟩
            by_cases hq : a + c * m1.nr = l
            · obtain ⟨rfl, rfl⟩ := (lin_eq_iff ha).2 hq
              exact not_lt.1 hge
            · exact h a ha c hc (by omega))
      refine ⟨b', e', ?_⟩
      rw [Nat.succ_mul]
      exact hP')
  refine ⟨b, e, ?_⟩
  refine Iff.trans hb ?_
  exact ⟨fun h a ha c hc => h a ha c hc (pos_lt ha hc), fun h a ha c hc _ => h a ha c hc⟩

theorem bwdL_gdims : ∀ (Ls : List Layer) (d : Mat ℝ), (bwdL Ls d).1.map (fun L => (L.grad.nr, L.grad.nc)) = Ls.map (fun L => (L.W.nr, L.W.nc))
  | [], _ => rfl
  | L :: Ls, d => by
    show ((L.bwd _).grad.nr, (L.bwd _).grad.nc) :: ((bwdL Ls d).1).map _ = _ :: _
    rw [bwdL_gdims Ls d]
    rfl

/-- The gradients of the hidden layers on `(x, y)`. -/
def gradL (s0 : Store) (n0 : Net) (x D : Mat ℝ) : List Layer := (bwdL (fwdL (n0.hiddenLayers s0) x) (Layer.backOf D n0.output.W)).1

theorem at_self {s0 : Store} {n0 : Net} {p q : Nat} (hw : n0.WF s0 p q) (hg : ∀ L ∈ n0.hiddenLayers s0, L.grad.nr = L.W.nr ∧ L.grad.nc = L.W.nc) :
    Net.At s0 n0 ((n0.hiddenLayers s0).map Layer.core) s0 n0 := by
  refine ⟨.rfl, hw.dense, fun _ _ => rfl, rfl, rfl, ?_⟩
  rw [List.map_map]
  refine List.map_congr_left fun L hL => ?_
  obtain ⟨g1, g2⟩ := hg L hL
  exact Prod.ext g1 g2

theorem sameDims_self (s0 : Store) (n0 : Net) : SameDims s0 n0 ((n0.hiddenLayers s0).map Layer.core) := by
  unfold SameDims
  rw [List.map_map]
  rfl

/-- The forward and backward pass from any state with the original data. -/
theorem Net.At.pass {junk : Nat → Nat → ℝ} {s0 s : Store} {n0 n : Net} {p q : Nat} {x y D : Mat ℝ} (h : Net.At s0 n0 ((n0.hiddenLayers s0).map Layer.core) s n) (hw : Ctx s0 n0 p q x y)
    (hD : n0.deltaOn s0 x y = .ok D) (hD1 : D.nr = 1) (hD2 : D.nc = q) :
    ∃ out s1 n1 s2 n2, n.forwardprop junk s x = .ok (out, s1, n1) ∧ n1.backprop junk s1 y = .ok (s2, n2) ∧
      Net.At s0 n0 ((n0.hiddenLayers s0).map Layer.core) s2 n2 ∧ n2.hiddenLayers s2 = gradL s0 n0 x D := by
  have hW : n.output.W = n0.output.W := congrArg (fun c : Core => c.2.2.2) h.out
  have hact : n.output.actfunc = n0.output.actfunc := congrArg (fun c : Core => c.2.2.1) h.out
  have hz : n.outputZ s x = n0.outputZ s0 x := by
    rw [outputZ_eq, outputZ_eq, hW, outL_congr x h.cores]
  have hD' : n.output.costd y ((n.outputZ s x).map n.output.actfunc.act) (n.outputZ s x) = .ok D := by
    rw [hz, hact, h.conf.ocostd]; exact hD
  obtain ⟨s1, n1, s2, n2, e1, e2, hb, -, hh, ho⟩ := forward_backward (junk := junk) (h.wf hw.wf (sameDims_self _ _)) (by rw [hw.xr]; omega) hw.xc (by rw [hw.yr, hw.xr]) hD'
    (by rw [hD1, hw.yr]) hD2
  have hgl : n2.hiddenLayers s2 = gradL s0 n0 x D := by
    rw [hh, hW, bwdL_congr _ _ h.cores]; rfl
  refine ⟨_, s1, n1, s2, n2, e1, e2, ⟨h.conf.trans hb.conf, fun id hid => hb.dense id (by rw [h.conf.hidden]; exact hid), fun r hr => ?_, ?_, ?_, ?_⟩, hgl⟩
  · rw [hb.frame r (by rw [h.conf.hidden]; exact hr), h.frame r hr]
  · rw [hgl]; unfold gradL; rw [bwdL_core, fwdL_core]
  · rw [ho]; exact h.out
  · rw [hgl]
    unfold gradL
    rw [bwdL_gdims, List.map_map]
    have := congrArg (List.map (fun W : Mat ℝ => (W.nr, W.nc))) (fwdL_W (n0.hiddenLayers s0) x)
    rw [List.map_map, List.map_map] at this
    exact this

/-- What the checker finds for layer `i`: every difference quotient is at least one millionth away from the gradient. -/
def Apart (s0 : Store) (n0 : Net) (x y D : Mat ℝ) (i : Nat) : Prop :=
  ∀ L B, (n0.hiddenLayers s0)[i]? = some L → (gradL s0 n0 x D)[i]? = some B → ∀ a < L.W.nr, ∀ b < L.W.nc, ∃ v,
    QuotC n0 x y ((n0.hiddenLayers s0).map Layer.core) i L.W (a + b * L.W.nr) v ∧ 1 / 1000000 ≤ |v - B.grad.f a b|

theorem QuotC.unique {n0 : Net} {x y W : Mat ℝ} {C : List Core} {i l : Nat} {v w : ℝ} (h : QuotC n0 x y C i W l v) (h' : QuotC n0 x y C i W l w) : v = w := by
  obtain ⟨a, b, h1, h2, rfl⟩ := h
  obtain ⟨a', b', h1', h2', rfl⟩ := h'
  rw [h1] at h1'; rw [h2] at h2'
  cases h1'; cases h2'
  rfl

theorem checkLayer_ok {junk : Nat → Nat → ℝ} {s0 s : Store} {n0 n : Net} {p q i : Nat} {x y D : Mat ℝ} {b : Bool} (h : Net.At s0 n0 ((n0.hiddenLayers s0).map Layer.core) s n)
    (hw : Ctx s0 n0 p q x y) (hD : n0.deltaOn s0 x y = .ok D) (hD1 : D.nr = 1) (hD2 : D.nc = q) (hi : i < n0.hidden.length) :
    ∃ b' s' n', Checker.checkLayer junk x y i (b, s, n) = .ok (b', s', n') ∧ Net.At s0 n0 ((n0.hiddenLayers s0).map Layer.core) s' n' ∧ (b' = true ↔ b = true ∧ Apart s0 n0 x y D i) := by
  have hlen : i < (n0.hiddenLayers s0).length := by unfold Net.hiddenLayers; rw [List.length_map]; exact hi
  obtain ⟨L0, hL0⟩ : ∃ L0, (n0.hiddenLayers s0)[i]? = some L0 := ⟨_, List.getElem?_eq_getElem hlen⟩
  have hc : ((n0.hiddenLayers s0).map Layer.core)[i]? = some L0.core := by rw [List.getElem?_map, hL0]; rfl
  obtain ⟨L, hL, hLc⟩ : ∃ L, (n.hiddenLayers s)[i]? = some L ∧ L.core = L0.core := by
    have : ((n.hiddenLayers s).map Layer.core)[i]? = ((n0.hiddenLayers s0).map Layer.core)[i]? := congrArg (fun l : List Core => l[i]?) h.cores
    rw [hc, List.getElem?_map] at this
    rcases hk : (n.hiddenLayers s)[i]? with _ | L
    · rw [hk] at this; simp at this
    · rw [hk] at this; exact ⟨L, rfl, Option.some.inj this⟩
  have hW : L.W = L0.W := congrArg (fun c : Core => c.2.2.2) hLc
  have hgd : L.grad.nr = L0.W.nr ∧ L.grad.nc = L0.W.nc := by
    have := congrArg (fun l : List (Nat × Nat) => l[i]?) h.gdims
    simp only [List.getElem?_map, hL, hL0, Option.map_some, Option.some.injEq, Prod.mk.injEq] at this
    exact this
  obtain ⟨t, e1, a1, g1, g2, g3⟩ := entries_ok (junk := junk) (gradient := L.grad) h hw (sameDims_self _ _) hi hc hgd.1 hgd.2
  obtain ⟨out, s1, n1, s2, n2, e2, e3, a2, hgl⟩ := a1.pass (junk := junk) hw hD hD1 hD2
  obtain ⟨B, hB⟩ : ∃ B, (gradL s0 n0 x D)[i]? = some B := by
    have := congrArg List.length a2.cores
    rw [hgl, List.length_map, List.length_map] at this
    exact ⟨_, List.getElem?_eq_getElem (by omega)⟩
  have hBd : B.grad.nr = L0.W.nr ∧ B.grad.nc = L0.W.nc := by
    have := congrArg (fun l : List (Nat × Nat) => l[i]?) a2.gdims
    rw [hgl] at this
    simp only [List.getElem?_map, hB, hL0, Option.map_some, Option.some.injEq, Prod.mk.injEq] at this
    exact this
  obtain ⟨same, e4, hsame⟩ := issame_ok (m1 := t.gradient) (m2 := B.grad) (by rw [g1, hBd.1]; rfl) (by rw [g2, hBd.2]; rfl)
  refine ⟨if same then b else false, s2, n2, ?_, a2, ?_⟩
  · unfold Checker.checkLayer
    dsimp only
    rw [gethidden_of hL, ok_bind, hW]
    have e1' : loop L0.W.nr (fun j t => loop L0.W.nc (fun k t => Checker.checkEntry junk x y i L0.W j k t) t) ⟨L0.W, L.grad, s, n⟩ = .ok t := e1
    rw [e1', ok_bind, e2, ok_bind]
    dsimp only
    rw [e3, ok_bind]
    dsimp only
    rw [gethidden_of (by rw [hgl]; exact hB), ok_bind, e4, ok_bind]
  · have hA : same = true ↔ Apart s0 n0 x y D i := by
      rw [hsame]
      constructor
      · intro hh L' B' hL' hB' a ha c hc'
        rw [hL0] at hL'; rw [hB] at hB'
        cases hL'; cases hB'
        exact ⟨_, g3 a ha c hc', hh a (by rw [g1]; exact ha) c (by rw [g2]; exact hc')⟩
      · intro hh a ha c hc'
        have ha' : a < L0.W.nr := by rw [g1] at ha; exact ha
        have hc'' : c < L0.W.nc := by rw [g2] at hc'; exact hc'
        obtain ⟨v, hv1, hv2⟩ := hh L0 B hL0 hB a ha' c hc''
        rw [QuotC.unique (g3 a ha' c hc'') hv1]
        exact hv2
    rw [← hA]
    cases same <;> simp

theorem check_ok {junk : Nat → Nat → ℝ} {s0 : Store} {n0 : Net} {p q : Nat} {x y D : Mat ℝ} (hw : Ctx s0 n0 p q x y)
    (hg : ∀ L ∈ n0.hiddenLayers s0, L.grad.nr = L.W.nr ∧ L.grad.nc = L.W.nc) (hD : n0.deltaOn s0 x y = .ok D) (hD1 : D.nr = 1) (hD2 : D.nc = q) :
    ∃ b s' n', loop n0.hidden.length (Checker.checkLayer junk x y) (true, s0, n0) = .ok (b, s', n') ∧ Net.At s0 n0 ((n0.hiddenLayers s0).map Layer.core) s' n' ∧
      (b = true ↔ ∀ i < n0.hidden.length, Apart s0 n0 x y D i) := by
  obtain ⟨⟨b, s', n'⟩, e, a, hb⟩ := loop_inv (n := n0.hidden.length) (body := Checker.checkLayer junk x y) (s := (true, s0, n0))
    (fun k (t : Bool × Store × Net) => Net.At s0 n0 ((n0.hiddenLayers s0).map Layer.core) t.2.1 t.2.2 ∧ (t.1 = true ↔ ∀ i < k, Apart s0 n0 x y D i))
    ⟨at_self hw.wf hg, by simp⟩ (fun i t hi ht => by
      obtain ⟨b, s, n⟩ := t
      obtain ⟨b', s', n', e, a, hb⟩ := checkLayer_ok (junk := junk) (b := b) ht.1 hw hD hD1 hD2 hi
      refine ⟨_, e, a, ?_⟩
      show b' = true ↔ _
      rw [hb, show (b = true ↔ ∀ k < i, Apart s0 n0 x y D k) from ht.2]
      constructor
      · rintro ⟨h1, h2⟩ k hk
        rcases Nat.lt_or_ge k i with h | h
        · exact h1 k h
        · obtain rfl : k = i := by omega
          exact h2
      · intro h
        exact ⟨fun k hk => h k (by omega), h i (by omega)⟩)
  exact ⟨b, s', n', e, a, hb⟩

theorem lossC_eq {s0 : Store} {n0 : Net} {x y V : Mat ℝ} {i : Nat} (hi : i < n0.hidden.length) :
    lossC n0 x y (((n0.hiddenLayers s0).map Layer.core).modify i (Core.setW V)) = Spec.lossWith s0 n0 x y i V := by
  unfold lossC Spec.lossWith
  have : (((n0.hiddenLayers s0).map Layer.core).modify i (Core.setW V)).map Core.actW ++ [Core.actW n0.output.toLayer.core] = (n0.params s0).modify i (fun p => (p.1, V)) := by
    unfold Net.params Net.layers
    rw [List.map_append]
    refine List.ext_getElem? fun k => ?_
    have hlen : ((n0.hiddenLayers s0)).length = n0.hidden.length := by unfold Net.hiddenLayers; rw [List.length_map]
    rcases Nat.lt_or_ge k (n0.hiddenLayers s0).length with h | h
    · rw [List.getElem?_append_left (by rw [List.length_map, List.length_modify, List.length_map]; exact h), List.getElem?_modify, List.getElem?_append_left (by rw [List.length_map]; exact h)]
      simp only [List.getElem?_map, List.getElem?_modify]
      rcases (n0.hiddenLayers s0)[k]? with _ | L
      · rfl
      · by_cases hik : i = k <;> simp [hik, Layer.core, Core.setW, Core.actW]
    · rw [List.getElem?_append_right (by rw [List.length_map, List.length_modify, List.length_map]; exact h), List.getElem?_modify, List.getElem?_append_right (by rw [List.length_map]; exact h)]
      simp only [List.length_map, List.length_modify]
      simp only [if_neg (show ¬ i = k by omega)]
      show _ = Option.map (fun a => a) _
      rw [Option.map_id']
      rfl
  rw [this]

/-! ## C61 -/

/-- **C61** (the verdict). For a well-formed dense network whose layers have gradients of the right size (as every constructed layer has), a total cost and a derivative of
the cost of the right shape, `check()` ends normally, leaves every layer's weights, activation, learning rate and regularisation as they were (the layers outside the network untouched),
and returns `true` exactly if in *every* hidden layer and for *every* weight the difference quotient it forms is at least one millionth away from the gradient that back-propagation computes. The
quotient for a weight is taken with all the weights before it in memory already lowered by one millionth. -/
theorem C61_verdict {junk : Nat → Nat → ℝ} {s : Store} {c : Checker} {p q : Nat} (hw : c.nnet.WF s p q) (hx : c.random_data.nr = 1 ∧ c.random_data.nc = p)
    (hy : c.random_label.nr = 1 ∧ c.random_label.nc = q) (ht : Spec.Total c.nnet.cost) (hd : OutputLayer.DeltaOK c.nnet.output.costd)
    (hg : ∀ i L, c.nnet.gethidden s i = .ok L → L.grad.nr = L.W.nr ∧ L.grad.nc = L.W.nc) :
    ∃ b s' c' sg ng, c.check junk s = .ok (b, s', c') ∧ c.nnet.gradPass junk s c.random_data c.random_label = .ok (sg, ng) ∧
      (c'.nnet.layers s').map Layer.core = (c.nnet.layers s).map Layer.core ∧ (∀ r, r ∉ c.nnet.hidden → s' r = s r) ∧
      (b = true ↔ ∀ i L B, c.nnet.gethidden s i = .ok L → ng.gethidden sg i = .ok B → ∀ a < L.W.nr, ∀ b < L.W.nc, ∃ l1 l2,
        Spec.lossWith s c.nnet c.random_data c.random_label i (Spec.shifted L.W (a + b * L.W.nr) (1 / 1000000)) = .ok l1 ∧
        Spec.lossWith s c.nnet c.random_data c.random_label i (Spec.shifted L.W (a + b * L.W.nr) (-(1 / 1000000))) = .ok l2 ∧
        1 / 1000000 ≤ |(l1 - l2) / (2 * (1 / 1000000)) - B.grad.f a b|) := by
  have ctx : Ctx s c.nnet p q c.random_data c.random_label := ⟨hw, hx.1, hx.2, hy.1, hy.2, ht⟩
  obtain ⟨d1, d2⟩ := outputZ_dims hw hx.2
  obtain ⟨D, hD, hD1, hD2⟩ := hd c.random_label ((c.nnet.outputZ s c.random_data).map c.nnet.output.actfunc.act) (c.nnet.outputZ s c.random_data)
    (by rw [Mat.map_nr, d1, hx.1, hy.1]) (by rw [Mat.map_nc, d2, hy.2]) (by rw [d1, hx.1, hy.1]) (by rw [d2, hy.2])
  have hg' : ∀ L ∈ c.nnet.hiddenLayers s, L.grad.nr = L.W.nr ∧ L.grad.nc = L.W.nc := by
    intro L hL
    obtain ⟨i, hi⟩ := List.getElem?_of_mem hL
    exact hg i L (gethidden_of hi)
  rw [hy.1] at hD1
  rw [hy.2] at hD2
  obtain ⟨b, s', n', e, a, hb⟩ := check_ok (junk := junk) ctx hg' (by exact hD) hD1 hD2
  obtain ⟨out, s1, n1, sg, ng, e1, e2, -, hgl⟩ := (at_self hw hg').pass (junk := junk) ctx (by exact hD) hD1 hD2
  refine ⟨b, s', { c with nnet := n' }, sg, ng, ?_, ?_, ?_, a.frame, ?_⟩
  · unfold Checker.check
    rw [e, ok_bind]
  · unfold Net.gradPass
    rw [e1, ok_bind]
    exact e2
  · show (n'.layers s').map Layer.core = _
    unfold Net.layers
    rw [List.map_append, List.map_append, a.cores]
    simp only [List.map_cons, List.map_nil]
    rw [a.out]
  · rw [hb]
    constructor
    · intro h i L B hL hB a ha b hb'
      have hL' := hiddenLayer_get hL
      have hi : i < c.nnet.hidden.length := by
        have := (List.getElem?_eq_some_iff.1 hL').1
        unfold Net.hiddenLayers at this
        rw [List.length_map] at this
        exact this
      obtain ⟨v, ⟨l1, l2, q1, q2, rfl⟩, hv⟩ := h i hi L B hL' (by rw [← hgl]; exact hiddenLayer_get hB) a ha b hb'
      rw [lossC_eq hi] at q1 q2
      exact ⟨l1, l2, q1, q2, hv⟩
    · intro h i hi L B hL hB a ha b hb'
      obtain ⟨l1, l2, q1, q2, hv⟩ := h i L B (gethidden_of hL) (gethidden_of (by rw [hgl]; exact hB)) a ha b hb'
      rw [← lossC_eq hi] at q1 q2
      exact ⟨_, ⟨l1, l2, q1, q2, rfl⟩, hv⟩

/-! ### The checker's verdict is upside down -/

/-- A layer with identity activation whose declared derivative is `d`. -/
def ckLayer (d : ℝ) (W : Mat ℝ) : Layer :=
  { lrate := 0, lambda := 0, actfunc := ⟨fun v => v, fun _ => d⟩, pa := .empty, z := .empty, a := .empty, delta := .empty, W := W, grad := W }

/-- One input, one hidden node with weights 0, one output node with bias 0 and weight `w`, quadratic cost. -/
def ckNet (w : ℝ) : Net :=
  { result := .empty, cost := Quadratic.cost, costd := Quadratic.costd, input := ckLayer 1 (Mat.of 1 1 (fun _ _ => 0)), hidden := [7],
    output := { ckLayer 1 (Mat.of 2 1 (fun i _ => if i = 0 then 0 else w)) with cost := Quadratic.cost, costd := Quadratic.costd, y := .empty } }

/-- Its hidden layer. -/
def ckStore (d : ℝ) : Store := fun _ => ⟨ckLayer d (Mat.of 2 1 (fun _ _ => 0)), .dense⟩

/-- The sample and the label the checker draws if `rand()` returns 5000. -/
def ckX : Mat ℝ := Mat.of 1 1 (fun _ _ => 1 / 2)

theorem ckNet_wf (w d : ℝ) : (ckNet w).WF (ckStore d) 1 1 := by
  refine ⟨by simp [ckNet], fun _ _ => rfl, by omega, ?_⟩
  simp [Net.layers, Net.hiddenLayers, ckNet, ckStore, ckLayer, Spec.Fits]

theorem ck_dense {V : Mat ℝ} (hV : V.nc = 1) : (Spec.dense (fun v => v) V ckX).f 0 0 = V.f 0 0 + 1 / 2 * V.f 1 0 := by
  unfold Spec.dense
  rw [Mat.of_f' (by show 0 < 1; omega) (by omega), show ckX.nc = 1 from rfl, sum_range_one]
  unfold ckX
  rw [Mat.of_f' (by omega) (by omega)]

theorem ck_loss (w d : ℝ) {V : Mat ℝ} (hV : V.nc = 1) :
    Spec.lossWith (ckStore d) (ckNet w) ckX ckX 0 V = .ok ((1 / 2 - (V.f 0 0 + 1 / 2 * V.f 1 0) * w) * (1 / 2 - (V.f 0 0 + 1 / 2 * V.f 1 0) * w) / 2) := by
  unfold Spec.lossWith
  have hp : ((ckNet w).params (ckStore d)).modify 0 (fun p => (p.1, V)) = [((fun v => v), V), ((fun v => v), Mat.of 2 1 (fun i _ => if i = 0 then 0 else w))] := rfl
  rw [hp]
  have hout : Spec.denseNet [((fun v : ℝ => v), V), ((fun v => v), Mat.of 2 1 (fun i _ => if i = 0 then 0 else w))] ckX = Mat.of 1 1 (fun _ _ => (V.f 0 0 + 1 / 2 * V.f 1 0) * w) := by
    refine Mat.ext' rfl rfl fun a b ha hb => ?_
    replace ha : a < 1 := ha
    replace hb : b < 1 := hb
    obtain rfl : a = 0 := by omega
    obtain rfl : b = 0 := by omega
    simp only [Spec.denseNet]
    unfold Spec.dense
    rw [Mat.of_f' (by show 0 < 1; omega) (by show 0 < 1; omega), Mat.of_f' (by omega) (by omega)]
    have := ck_dense hV
    unfold Spec.dense at this
    rw [show (Mat.of ckX.nr V.nc (fun i j => V.f 0 j + ∑ k ∈ range ckX.nc, ckX.f i k * V.f (k + 1) j)).nc = 1 from hV, sum_range_one, this,
      Mat.of_f' (by omega) (by omega), Mat.of_f' (by omega) (by omega)]
    simp
  rw [hout, show (ckNet w).cost = Quadratic.cost from rfl, quadratic_cost (by rfl) (by rfl), ok_bind]
  congr 1
  unfold sumall
  rw [Mat.accu_of, show ckX.nr = 1 from rfl, show ckX.nc = 1 from rfl, sum_range_one, sum_range_one, Mat.of_f' (by omega) (by omega)]
  unfold ckX
  rw [Mat.of_f' (by omega) (by omega)]
  norm_num

theorem ck_grad (w d : ℝ) (junk : Nat → Nat → ℝ) : ∃ sg ng B, (ckNet w).gradPass junk (ckStore d) ckX ckX = .ok (sg, ng) ∧ ng.gethidden sg 0 = .ok B ∧
    B.grad.f 0 0 = -(1 / 2) * w * d ∧ B.grad.f 1 0 = 1 / 2 * (-(1 / 2) * w * d) := by
  have hz : ((ckNet w).outputZ (ckStore d) ckX).f 0 0 = 0 := by
    rw [outputZ_eq]
    unfold Spec.pre
    rw [Mat.of_f' (by show 0 < 1; omega) (by show 0 < 1; omega), show (outL ((ckNet w).hiddenLayers (ckStore d)) ckX).nc = 1 from rfl, sum_range_one]
    have h1 : (outL ((ckNet w).hiddenLayers (ckStore d)) ckX).f 0 0 = 0 := by
      rw [outL_eq_denseNet]
      show (Spec.dense (fun v => v) (Mat.of 2 1 (fun _ _ => 0)) ckX).f 0 0 = 0
      rw [ck_dense rfl, Mat.of_f' (by omega) (by omega), Mat.of_f' (by omega) (by omega)]
      norm_num
    rw [h1, show (ckNet w).output.W = Mat.of 2 1 (fun i _ => if i = 0 then 0 else w) from rfl, Mat.of_f' (by omega) (by omega)]
    simp
  obtain ⟨D, hD, hD1, hD2, hD0⟩ : ∃ D, (ckNet w).output.costd ckX (((ckNet w).outputZ (ckStore d) ckX).map (ckNet w).output.actfunc.act) ((ckNet w).outputZ (ckStore d) ckX) = .ok D ∧
      D.nr = 1 ∧ D.nc = 1 ∧ D.f 0 0 = -(1 / 2) := by
    refine ⟨_, diff_costd (by rfl) (by rfl), rfl, rfl, ?_⟩
    rw [Mat.of_f' (by show 0 < 1; omega) (by show 0 < 1; omega), Mat.map_f' (by show 0 < 1; omega) (by show 0 < 1; omega), hz]
    unfold ckX
    rw [Mat.of_f' (by omega) (by omega)]
    show ((0 : ℝ) - 1 / 2) / ((1 : Nat) : ℝ) = _
    norm_num
  obtain ⟨s1, n1, s2, n2, e1, e2, -, -, hh, -⟩ := forward_backward (junk := junk) (ckNet_wf w d) (x := ckX) (by show 0 < 1; omega) rfl rfl hD hD1 hD2
  refine ⟨s2, n2, ((ckStore d 7).base.fwd ckX).bwd (Layer.backOf D (ckNet w).output.W), ?_, gethidden_of (by rw [hh]; rfl), ?_, ?_⟩
  · unfold Net.gradPass
    rw [e1, ok_bind]; exact e2
  all_goals
    show (((ckStore d 7).base.fwd ckX).regGrad (((ckStore d 7).base.fwd ckX).dz (Layer.backOf D (ckNet w).output.W))).f _ 0 = _
    unfold Layer.regGrad Layer.gradOf
    rw [Mat.of_f' (by first | (show 0 < 2; omega) | (show 1 < 2; omega)) (by show 0 < 1; omega),
      Mat.of_f' (by first | (show 0 < 2; omega) | (show 1 < 2; omega)) (by show 0 < 2 - 1; omega)]
    rw [show ((ckStore d 7).base.fwd ckX).pa.nr = 1 from rfl, sum_range_one]
    unfold Layer.dz
    rw [Mat.of_f' (by show 0 < D.nr; omega) (by show 0 < 2 - 1; omega)]
    unfold Layer.backOf
    rw [Mat.of_f' (by omega) (by show 0 < 2 - 1; omega), hD2, sum_range_one, hD0]
    rw [show (ckNet w).output.W = Mat.of 2 1 (fun i _ => if i = 0 then 0 else w) from rfl, Mat.of_f' (by omega) (by omega)]
  · have hpa : ((ckStore d 7).base.fwd ckX).pa.f 0 0 = 1 := by
      show (ones1 ckX).f 0 0 = 1
      unfold ones1
      rw [Mat.of_f' (by show 0 < 1; omega) (by show 0 < 2; omega)]
      simp
    rw [hpa]
    show (1 : ℝ) * (-(1 / 2) * (if 0 + 1 = 0 then 0 else w) * d) + 0 * _ = _
    simp
  · have hpa : ((ckStore d 7).base.fwd ckX).pa.f 0 1 = 1 / 2 := by
      show (ones1 ckX).f 0 1 = 1 / 2
      unfold ones1
      rw [Mat.of_f' (by show 0 < 1; omega) (by show 1 < 2; omega)]
      show (if 1 = 0 then (1 : ℝ) else ckX.f 0 (1 - 1)) = _
      rw [if_neg (by omega)]
      unfold ckX
      rw [Mat.of_f' (by omega) (by omega)]
    rw [hpa]
    show (1 / 2 : ℝ) * (-(1 / 2) * (if 0 + 1 = 0 then 0 else w) * d) + 0 * _ = _
    simp

/-- The checker the constructor builds when `rand()` always returns 5000. -/
theorem ck_new (w : ℝ) (dist : Draws) (junk : Nat → Nat → ℝ) (self : Net) : ∃ c, Checker.new dist junk (fun _ => 5000) self (ckNet w) = .ok c ∧ c.random_data = ckX ∧ c.random_label = ckX ∧
    c.nnet = self.assign (ckNet w) := by
  obtain ⟨L', e, -, hn, -⟩ := C53_copy_partial dist junk 1 (ckNet w).input
  unfold copies at e
  obtain ⟨M, h1, e⟩ := bind_eq_ok e
  unfold copies at e
  cases e
  have hn' : L'.getnnodes = 1 := hn
  have hfill : ∀ f, Checker.fillRandom (fun _ => 5000) f 1 (Mat.of 1 1 junk) = .ok ckX := by
    intro f
    unfold Checker.fillRandom
    show (do let s' ← Except.ok _; Mat.setLin s' 0 _ : Res (Mat ℝ)) = _
    rw [ok_bind, setLin_ok (by show 0 < 1 * 1; omega)]
    congr 1
    refine Mat.of_congr fun a b ha hb => ?_
    replace ha : a < 1 := ha
    replace hb : b < 1 := hb
    rw [if_pos (by constructor <;> simp <;> omega)]
    norm_num
  refine ⟨⟨self.assign (ckNet w), ckX, ckX⟩, ?_, rfl, rfl, rfl⟩
  unfold Checker.new
  dsimp only
  rw [h1, ok_bind, hn', show (ckNet w).output.copyCtor.getnnodes = 1 from rfl]
  rw [show Mat.mk' junk 1 ((1 : Nat) : Int) = .ok (Mat.of 1 1 junk) from rfl, ok_bind, ok_bind, hfill, ok_bind, hfill, ok_bind]

theorem ck_total (w : ℝ) : Spec.Total (ckNet w).cost := fun _ _ h1 h2 => ⟨_, quadratic_cost h1 h2⟩

theorem ck_gdims (w d : ℝ) {i : Nat} {L : Layer} (h : (ckNet w).gethidden (ckStore d) i = .ok L) : i = 0 ∧ L = ckLayer d (Mat.of 2 1 (fun _ _ => 0)) := by
  have := hiddenLayer_get h
  have h0 : (ckNet w).hiddenLayers (ckStore d) = [ckLayer d (Mat.of 2 1 (fun _ _ => 0))] := rfl
  rw [h0] at this
  rcases i with _ | i
  · exact ⟨rfl, (Option.some.inj this).symm⟩
  · simp at this

theorem shifted_ck {l : Nat} {e : ℝ} : (shifted (Mat.of 2 1 (fun _ _ => (0 : ℝ))) l e).nc = 1 ∧
    (shifted (Mat.of 2 1 (fun _ _ => (0 : ℝ))) l e).f 0 0 = (if 0 < l then -(1 / 1000000) else if 0 = l then e else 0) ∧
    (shifted (Mat.of 2 1 (fun _ _ => (0 : ℝ))) l e).f 1 0 = (if 1 < l then -(1 / 1000000) else if 1 = l then e else 0) := by
  refine ⟨rfl, ?_, ?_⟩
  · rw [shifted_f (by show 0 < 2; omega) (by show 0 < 1; omega), Mat.of_f' (by omega) (by omega)]
    show (if 0 + 0 * 2 < l then (0 : ℝ) - 1 / 1000000 else if 0 + 0 * 2 = l then 0 + e else 0) = _
    simp
  · rw [shifted_f (by show 1 < 2; omega) (by show 0 < 1; omega), Mat.of_f' (by omega) (by omega)]
    show (if 1 + 0 * 2 < l then (0 : ℝ) - 1 / 1000000 else if 1 + 0 * 2 = l then 0 + e else 0) = _
    simp

/-- The checker on the small network, run after construction with `rand() = 5000`. -/
theorem ck_run (w d : ℝ) (dist : Draws) (junk : Nat → Nat → ℝ) (self : Net) : ∃ c b s' c', Checker.new dist junk (fun _ => 5000) self (ckNet w) = .ok c ∧
    c.check junk (ckStore d) = .ok (b, s', c') ∧ (b = true ↔
      1 / 1000000 ≤ |-(w / 2) + w * d / 2| ∧ 1 / 1000000 ≤ |-(w / 2) * (1 / 2 + w / 1000000) + w * d / 4|) := by
  obtain ⟨c, e, hx, hy, hn⟩ := ck_new w dist junk self
  have hlay : ∀ s, c.nnet.layers s = (ckNet w).layers s := by intro s; rw [hn]; rfl
  have hgh : ∀ i, c.nnet.gethidden (ckStore d) i = (ckNet w).gethidden (ckStore d) i := by intro i; rw [hn]; rfl
  have hwf : c.nnet.WF (ckStore d) 1 1 := by
    have h0 := ckNet_wf w d
    refine ⟨by rw [hn]; exact h0.nodup, by rw [hn]; exact h0.dense, h0.pos, by rw [hlay]; exact h0.fits⟩
  obtain ⟨b, s', c', sg, ng, e1, e2, -, -, hb⟩ := C61_verdict (junk := junk) (s := ckStore d) (c := c) (p := 1) (q := 1) hwf (by rw [hx]; exact ⟨rfl, rfl⟩) (by rw [hy]; exact ⟨rfl, rfl⟩)
    (by rw [hn]; exact ck_total w) (by rw [hn]; exact C54_costs.1)
    (fun i L h => by rw [hgh] at h; obtain ⟨-, rfl⟩ := ck_gdims w d h; exact ⟨rfl, rfl⟩)
  refine ⟨c, b, s', c', e, e1, ?_⟩
  obtain ⟨sg', ng', B, f1, f2, f3, f4⟩ := ck_grad w d junk
  -- the gradient pass of the checker's network is that of the network
  have hsame : ∃ ng1 B1, c.nnet.gradPass junk (ckStore d) c.random_data c.random_label = .ok (sg', ng1) ∧ ng1.gethidden sg' 0 = .ok B1 ∧ B1.grad = B.grad := by
    rw [hx, hy]
    have hn2 : c.nnet = { ckNet w with input := InputLayer.assign (ckNet w).input, output := { (ckNet w).output with y := self.output.y } } := by rw [hn]; rfl
    unfold Net.gradPass at f1 ⊢
    obtain ⟨⟨o, s1, n1⟩, g1, g2⟩ := bind_eq_ok f1
    unfold Net.forwardprop at g1
    simp only [InputLayer.forwardprop] at g1
    obtain ⟨⟨cur, s2⟩, g3, g4⟩ := bind_eq_ok g1
    obtain ⟨⟨res, o1⟩, g5, g6⟩ := bind_eq_ok g4
    cases g6
    unfold OutputLayer.forwardprop at g5
    obtain ⟨⟨r', L'⟩, g7, g8⟩ := bind_eq_ok g5
    cases g8
    have q1 : c.nnet.forwardprop junk (ckStore d) ckX = .ok (res, s2, { c.nnet with input := { c.nnet.input with z := ckX, a := ckX }, output := { c.nnet.output with toLayer := L' }, result := res }) := by
      unfold Net.forwardprop
      simp only [InputLayer.forwardprop]
      rw [show c.nnet.hidden = (ckNet w).hidden by rw [hn]; rfl, g3, ok_bind]
      dsimp only
      unfold OutputLayer.forwardprop
      rw [show c.nnet.output.toLayer = (ckNet w).output.toLayer by rw [hn]; rfl, g7, ok_bind]
      rfl
    rw [q1, ok_bind]
    dsimp only at g2 ⊢
    unfold Net.backprop at g2 ⊢
    obtain ⟨⟨d1, o2⟩, k1, k2⟩ := bind_eq_ok g2
    obtain ⟨s3, k3, k4⟩ := bind_eq_ok k2
    cases k4
    unfold OutputLayer.backprop at k1 ⊢
    dsimp only at k1 ⊢
    rw [show c.nnet.output.costd = (ckNet w).output.costd by rw [hn]; rfl]
    obtain ⟨D, j1, k1⟩ := bind_eq_ok k1
    obtain ⟨G, j2, k1⟩ := bind_eq_ok k1
    obtain ⟨G', j3, k1⟩ := bind_eq_ok k1
    obtain ⟨N, j4, k1⟩ := bind_eq_ok k1
    obtain ⟨N', j5, k1⟩ := bind_eq_ok k1
    cases k1
    rw [j1, ok_bind, j2, ok_bind, j3, ok_bind, j4, ok_bind, j5, ok_bind, ok_bind]
    dsimp only
    rw [show c.nnet.hidden = (ckNet w).hidden by rw [hn]; rfl, k3, ok_bind]
    refine ⟨_, B, rfl, ?_, rfl⟩
    unfold Net.gethidden at f2 ⊢
    exact f2
  obtain ⟨ng1, B1, m1, m2, m3⟩ := hsame
  rw [m1] at e2
  cases e2
  have hloss : ∀ V : Mat ℝ, V.nc = 1 → Spec.lossWith (ckStore d) c.nnet c.random_data c.random_label 0 V =
      .ok ((1 / 2 - (V.f 0 0 + 1 / 2 * V.f 1 0) * w) * (1 / 2 - (V.f 0 0 + 1 / 2 * V.f 1 0) * w) / 2) := by
    intro V hV
    rw [hx, hy, hn]
    exact ck_loss w d hV
  rw [hb]
  constructor
  · intro h
    have h0 := h 0 _ B1 (by rw [hgh]; rfl) m2
    constructor
    · obtain ⟨l1, l2, q1, q2, q3⟩ := h0 0 (by show 0 < 2; omega) 0 (by show 0 < 1; omega)
      obtain ⟨z1, z2, z3⟩ := shifted_ck (l := 0) (e := 1 / 1000000)
      obtain ⟨y1, y2, y3⟩ := shifted_ck (l := 0) (e := -(1 / 1000000))
      replace q1 := (hloss _ z1).symm.trans q1
      replace q2 := (hloss _ y1).symm.trans q2
      rw [z2, z3] at q1
      rw [y2, y3] at q2
      cases q1; cases q2
      rw [m3, f3] at q3
      norm_num at q3
      convert q3 using 2 <;> ring_nf
    · obtain ⟨l1, l2, q1, q2, q3⟩ := h0 1 (by show 1 < 2; omega) 0 (by show 0 < 1; omega)
      obtain ⟨z1, z2, z3⟩ := shifted_ck (l := 1) (e := 1 / 1000000)
      obtain ⟨y1, y2, y3⟩ := shifted_ck (l := 1) (e := -(1 / 1000000))
      replace q1 := (hloss _ z1).symm.trans q1
      replace q2 := (hloss _ y1).symm.trans q2
      rw [z2, z3] at q1
      rw [y2, y3] at q2
      cases q1; cases q2
      rw [m3, f4] at q3
      norm_num at q3
      convert q3 using 2 <;> ring_nf
  · rintro ⟨h1, h2⟩ i L B' hL hB' a ha b' hb'
    rw [hgh] at hL
    obtain ⟨rfl, rfl⟩ := ck_gdims w d hL
    rw [m2] at hB'
    cases hB'
    replace ha : a < 2 := ha
    replace hb' : b' < 1 := hb'
    obtain rfl : b' = 0 := by omega
    obtain ⟨z1, z2, z3⟩ := shifted_ck (l := a) (e := 1 / 1000000)
    obtain ⟨y1, y2, y3⟩ := shifted_ck (l := a) (e := -(1 / 1000000))
    rcases Nat.lt_or_ge a 1 with ha1 | ha1
    · obtain rfl : a = 0 := by omega
      refine ⟨_, _, hloss (shifted (Mat.of 2 1 (fun _ _ => (0 : ℝ))) 0 (1 / 1000000)) z1, hloss (shifted (Mat.of 2 1 (fun _ _ => (0 : ℝ))) 0 (-(1 / 1000000))) y1, ?_⟩
      rw [m3, f3, z2, z3, y2, y3]
      norm_num
      convert h1 using 2 <;> ring_nf
    · obtain rfl : a = 1 := by omega
      refine ⟨_, _, hloss (shifted (Mat.of 2 1 (fun _ _ => (0 : ℝ))) 1 (1 / 1000000)) z1, hloss (shifted (Mat.of 2 1 (fun _ _ => (0 : ℝ))) 1 (-(1 / 1000000))) y1, ?_⟩
      rw [m3, f4, z2, z3, y2, y3]
      norm_num
      convert h2 using 2 <;> ring_nf

/-- What `check()` is for: the gradient that back-propagation computes for the first hidden layer is, entry by entry, the derivative of the loss. -/
def Spec.ExactGradient (junk : Nat → Nat → ℝ) (s : Store) (n : Net) (x y : Mat ℝ) : Prop :=
  ∃ sg ng L B, n.gradPass junk s x y = .ok (sg, ng) ∧ n.gethidden s 0 = .ok L ∧ ng.gethidden sg 0 = .ok B ∧ ∀ a < L.W.nr, ∀ b < L.W.nc, ∃ l : ℝ → ℝ,
    (∀ t, Spec.lossWith s n x y 0 (Mat.of L.W.nr L.W.nc (fun i j => if i = a ∧ j = b then t else L.W.f i j)) = .ok (l t)) ∧ HasDerivAt l (B.grad.f a b) (L.W.f a b)

theorem ck_lossAt (w d : ℝ) {a : Nat} (ha : a < 2) (t : ℝ) :
    Spec.lossWith (ckStore d) (ckNet w) ckX ckX 0 (Mat.of 2 1 (fun i j => if i = a ∧ j = 0 then t else (Mat.of 2 1 (fun _ _ => (0 : ℝ))).f i j)) =
      .ok ((1 / 2 - ((if a = 0 then 1 else 1 / 2) * t) * w) * (1 / 2 - ((if a = 0 then 1 else 1 / 2) * t) * w) / 2) := by
  rw [ck_loss w d (by rfl), Mat.of_f' (by omega) (by omega), Mat.of_f' (by omega) (by omega), Mat.of_f' (by omega) (by omega), Mat.of_f' (by omega) (by omega)]
  obtain rfl | rfl : a = 0 ∨ a = 1 := by omega
  · simp
  · simp

theorem ck_hasDeriv (k w : ℝ) : HasDerivAt (fun t : ℝ => (1 / 2 - (k * t) * w) * (1 / 2 - (k * t) * w) / 2) (-(1 / 2) * k * w) 0 := by
  have h1 : HasDerivAt (fun t : ℝ => 1 / 2 - (k * t) * w) (-(k * w)) 0 := by
    have := (((hasDerivAt_id (0 : ℝ)).const_mul k).mul_const w).const_sub (1 / 2)
    simpa using this
  have := (h1.mul h1).div_const 2
  refine this.congr_deriv ?_
  ring

/-- The gradient of the small network is exact if its activation function's derivative is declared as 1, ... -/
theorem ck_exact (w : ℝ) (junk : Nat → Nat → ℝ) : Spec.ExactGradient junk (ckStore 1) (ckNet w) ckX ckX := by
  obtain ⟨sg, ng, B, f1, f2, f3, f4⟩ := ck_grad w 1 junk
  refine ⟨sg, ng, ckLayer 1 (Mat.of 2 1 (fun _ _ => 0)), B, f1, rfl, f2, fun a ha b hb => ⟨fun t => (1 / 2 - ((if a = 0 then 1 else 1 / 2) * t) * w) * (1 / 2 - ((if a = 0 then 1 else 1 / 2) * t) * w) / 2, fun t => ?_, ?_⟩⟩
  · replace ha : a < 2 := ha
    replace hb : b < 1 := hb
    obtain rfl : b = 0 := by omega
    exact ck_lossAt w 1 ha t
  · replace ha : a < 2 := ha
    replace hb : b < 1 := hb
    obtain rfl : b = 0 := by omega
    have h0 : (ckLayer 1 (Mat.of 2 1 (fun _ _ => (0 : ℝ)))).W.f a 0 = 0 := Mat.of_f' (by omega) (by omega)
    rw [h0]
    refine (ck_hasDeriv _ w).congr_deriv ?_
    obtain rfl | rfl : a = 0 ∨ a = 1 := by omega
    · rw [f3]; simp
    · rw [f4]; simp; ring

/-- ... and wrong if it is declared as 5. -/
theorem ck_wrong (junk : Nat → Nat → ℝ) : ¬ Spec.ExactGradient junk (ckStore 5) (ckNet 1) ckX ckX := by
  rintro ⟨sg, ng, L, B, g1, g2, g3, h⟩
  obtain ⟨sg', ng', B', f1, f2, f3, f4⟩ := ck_grad 1 5 junk
  rw [f1] at g1
  cases g1
  rw [f2] at g3
  cases g3
  cases g2
  obtain ⟨l, hl, hd⟩ := h 0 (by show 0 < 2; omega) 0 (by show 0 < 1; omega)
  have h1 : l = fun t : ℝ => (1 / 2 - (1 * t) * 1) * (1 / 2 - (1 * t) * 1) / 2 := by
    funext t
    have e1 := (ck_lossAt 1 5 (a := 0) (by omega) t).symm.trans (hl t)
    have := Except.ok.inj e1
    rw [← this]
    simp
  have h0 : (ckLayer 5 (Mat.of 2 1 (fun _ _ => (0 : ℝ)))).W.f 0 0 = 0 := Mat.of_f' (by omega) (by omega)
  rw [h1] at hd
  replace hd : HasDerivAt _ _ ((ckLayer 5 (Mat.of 2 1 (fun _ _ => (0 : ℝ)))).W.f 0 0) := hd
  rw [h0] at hd
  have := hd.unique (ck_hasDeriv 1 1)
  rw [f3] at this
  norm_num at this

/-- **C61 refuted, one way**: a network whose gradient is exact is rejected. Any generator that yields 5000 will do. -/
theorem C61_rejects_exact_refuted (dist : Draws) (junk : Nat → Nat → ℝ) (self : Net) : ∃ (s : Store) (n : Net) (c c' : Checker) (s' : Store),
    Checker.new dist junk (fun _ => 5000) self n = .ok c ∧ Spec.ExactGradient junk s n c.random_data c.random_label ∧ c.check junk s = .ok (false, s', c') := by
  obtain ⟨c, e, hx, hy, hn⟩ := ck_new 1 dist junk self
  obtain ⟨c1, b, s', c', e1, e2, hb⟩ := ck_run 1 1 dist junk self
  rw [e] at e1
  cases e1
  refine ⟨ckStore 1, ckNet 1, c, c', s', e, ?_, ?_⟩
  · rw [hx, hy]; exact ck_exact 1 junk
  · cases b
    · exact e2
    · have := hb.1 rfl
      norm_num at this

/-- **C61 refuted, the other way**: a network whose gradient is five times the derivative is accepted. -/
theorem C61_accepts_wrong_refuted (dist : Draws) (junk : Nat → Nat → ℝ) (self : Net) : ∃ (s : Store) (n : Net) (c c' : Checker) (s' : Store),
    Checker.new dist junk (fun _ => 5000) self n = .ok c ∧ ¬ Spec.ExactGradient junk s n c.random_data c.random_label ∧ c.check junk s = .ok (true, s', c') := by
  obtain ⟨c, e, hx, hy, hn⟩ := ck_new 1 dist junk self
  obtain ⟨c1, b, s', c', e1, e2, hb⟩ := ck_run 1 5 dist junk self
  rw [e] at e1
  cases e1
  refine ⟨ckStore 5, ckNet 1, c, c', s', e, ?_, ?_⟩
  · rw [hx, hy]; exact ck_wrong junk
  · cases b
    · have : (false = true) := hb.2 (by constructor <;> norm_num [abs_of_pos, abs_of_neg])
      cases this
    · exact e2

end
end Nnet.NN
