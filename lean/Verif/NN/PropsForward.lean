import Verif.NN.NetLemmas2
import Mathlib.Tactic.Linarith
import Mathlib.Tactic.NormNum
/-!
# C28 forward pass, C32 predict, C38 setlrate, C55 prediction does not change the model
-/
namespace Nnet.NN
open Finset
noncomputable section

/-- The activations and weights of a network, first layer first. -/
def Net.params (s : Store) (n : Net) : List ((ℝ → ℝ) × Mat ℝ) := (n.layers s).map (fun L => (L.actfunc.act, L.W))

/-! ## C28 -/

/-- **C28, one layer.** For an `n x p` input (`n, p ≥ 1`) and `(p+1) x q` weights the output is
`act(b_j + sum_l x(i,l) w(l,j))`; for any other sizes `forwardprop` throws. -/
theorem C28_layer (L : Layer) (x : Mat ℝ) :
    (0 < x.nr → 0 < x.nc → L.W.nr = x.nc + 1 → ∃ L', L.forwardprop x = .ok (Spec.dense L.actfunc.act L.W x, L') ∧
      L'.W = L.W ∧ L'.a = Spec.dense L.actfunc.act L.W x ∧ L'.z = Spec.pre L.W x ∧ L'.grad = L.grad ∧ L'.lrate = L.lrate) ∧
    (¬ (0 < x.nr ∧ 0 < x.nc ∧ L.W.nr = x.nc + 1) → L.forwardprop x = .error .throw) := by
  refine ⟨fun h1 h2 h3 => ⟨L.fwd x, by rw [Layer.forwardprop_ok h1 h2 h3, Layer.fwd_a], rfl, L.fwd_a x, rfl, rfl, rfl⟩, fun h => ?_⟩
  unfold Layer.forwardprop
  by_cases h1 : 0 < x.nr ∧ 0 < x.nc
  · rw [addcol_ok h1.1 h1.2, ok_bind]
    unfold Mat.mul
    rw [if_neg (by simp only [Mat.of_nc]; omega)]
    rfl
  · rw [addcol_throw (by omega)]
    rfl

/-- **C28, whole network.** A well-formed dense network computes the composition of its layers, for every batch. -/
theorem C28_network {junk : Nat → Nat → ℝ} {s : Store} {n : Net} {p q : Nat} {x : Mat ℝ} (h : n.WF s p q) (hr : 0 < x.nr)
    (hc : x.nc = p) : ∃ s' n', n.forwardprop junk s x = .ok (Spec.denseNet (n.params s) x, s', n') ∧
      n'.getresult = Spec.denseNet (n.params s) x ∧
      (Spec.denseNet (n.params s) x).nr = x.nr ∧ (Spec.denseNet (n.params s) x).nc = q := by
  obtain ⟨s', n', e, _, hres, _⟩ := Net.forwardprop_ok (junk := junk) h hr hc
  have hd := outL_dims (Ls := n.layers s) (x := x) (q := q) (by rw [hc]; exact h.fits)
  rw [outL_eq_denseNet] at e hd hres
  exact ⟨s', n', e, hres, hd⟩

theorem dense_row (act : ℝ → ℝ) (W x : Mat ℝ) (i : Nat) (hi : i < x.nr) :
    Spec.dense act W (x.rowMat i) = (Spec.dense act W x).rowMat i := by
  unfold Spec.dense Mat.rowMat
  simp only [Mat.of_nr, Mat.of_nc]
  apply Mat.of_congr
  intro a j ha hj
  rw [Mat.of_f' hi hj]
  congr 2
  refine sum_congr rfl fun k hk => ?_
  rw [Mat.of_f' ha (mem_range.1 hk)]

theorem denseNet_row : ∀ (ls : List ((ℝ → ℝ) × Mat ℝ)) (x : Mat ℝ) (i : Nat), i < x.nr →
    Spec.denseNet ls (x.rowMat i) = (Spec.denseNet ls x).rowMat i
  | [], _, _, _ => rfl
  | (act, W) :: ls, x, i, hi => by
    show Spec.denseNet ls (Spec.dense act W (x.rowMat i)) = (Spec.denseNet ls (Spec.dense act W x)).rowMat i
    rw [dense_row act W x i hi]
    exact denseNet_row ls _ i hi

/-- **C28, row by row.** Feeding row `i` alone gives row `i` of the batch's output. -/
theorem C28_row_alone {junk junk' : Nat → Nat → ℝ} {s s1 s2 : Store} {n n1 n2 : Net} {p q : Nat} {x out out1 : Mat ℝ} {i : Nat}
    (h : n.WF s p q) (hc : x.nc = p) (hi : i < x.nr)
    (h1 : n.forwardprop junk s x = .ok (out, s1, n1)) (h2 : n.forwardprop junk' s (x.rowMat i) = .ok (out1, s2, n2)) :
    out1 = out.rowMat i := by
  obtain ⟨_, _, e1, _⟩ := C28_network (junk := junk) h (by omega) hc
  obtain ⟨_, _, e2, _⟩ := C28_network (junk := junk') (x := x.rowMat i) h (by exact Nat.one_pos) (by exact hc)
  rw [e1] at h1; rw [e2] at h2
  cases h1; cases h2
  exact denseNet_row _ _ _ hi

/-- **C28.** Rows that are equal give equal output rows, whatever the rest of the two batches. -/
theorem C28_row_independent {junk junk' : Nat → Nat → ℝ} {s s1 s2 : Store} {n n1 n2 : Net} {p q : Nat} {x x' out out' : Mat ℝ} {i i' : Nat}
    (h : n.WF s p q) (hc : x.nc = p) (hc' : x'.nc = p) (hi : i < x.nr) (hi' : i' < x'.nr) (hrow : ∀ j < p, x.f i j = x'.f i' j)
    (h1 : n.forwardprop junk s x = .ok (out, s1, n1)) (h2 : n.forwardprop junk' s x' = .ok (out', s2, n2)) :
    ∀ j < q, out.f i j = out'.f i' j := by
  obtain ⟨_, _, e1, _, d1⟩ := C28_network (junk := junk) h (show 0 < x.nr by omega) hc
  obtain ⟨_, _, e2, _, d2⟩ := C28_network (junk := junk') h (show 0 < x'.nr by omega) hc'
  rw [e1] at h1; rw [e2] at h2
  cases h1; cases h2
  intro j hj
  have hr : x.rowMat i = x'.rowMat i' := by
    unfold Mat.rowMat
    rw [hc, hc']
    exact Mat.of_congr fun a b _ hb => hrow b hb
  have key := congrArg (fun m => m.f 0 j) ((denseNet_row (n.params s) x i hi).symm.trans
    ((congrArg _ hr).trans (denseNet_row (n.params s) x' i' hi')))
  simp only [Mat.rowMat] at key
  rw [Mat.of_f' Nat.one_pos (by rw [d1.2]; exact hj), Mat.of_f' Nat.one_pos (by rw [d2.2]; exact hj)] at key
  exact key

/-! ## C32 -/

/-- `k` is the first position of a maximal element among `v 0, ..., v (n-1)`. -/
def Spec.FirstMax (v : Nat → ℝ) (n k : Nat) : Prop := k < n ∧ (∀ j < n, v j ≤ v k) ∧ ∀ j < k, v j < v k

theorem argmaxRow_ok {a : Mat ℝ} {i : Nat} (hi : i < a.nr) (hc : 0 < a.nc) :
    ∃ k, OutputLayer.argmaxRow a i = .ok (a.f i k, k) ∧ Spec.FirstMax (a.f i) a.nc k := by
  unfold OutputLayer.argmaxRow
  rw [Mat.at_ok' rfl (show (0 : Int) = ((0 : Nat) : Int) from rfl) hi hc, ok_bind]
  obtain ⟨s', e, k, rfl, hk⟩ := loop_inv (n := a.nc - 1) (body := fun j (s : ℝ × Nat) => (do
      let v ← a.at' i ((j : Int) + 1)
      .ok (if v > s.1 then (v, j + 1) else s) : Res _)) (s := (a.f i 0, 0))
    (fun t s => ∃ k, s = (a.f i k, k) ∧ Spec.FirstMax (a.f i) (t + 1) k) ⟨0, rfl, by omega, fun j hj => by
      have : j = 0 := by omega
      subst this; exact le_refl _, fun j hj => by omega⟩ (by
    rintro t s ht ⟨k, rfl, hk1, hk2, hk3⟩
    have hat : a.at' i ((t : Int) + 1) = .ok (a.f i (t + 1)) := Mat.at_ok' rfl (by push_cast; rfl) hi (by omega)
    simp only [hat, ok_bind]
    by_cases hgt : a.f i (t + 1) > a.f i k
    · refine ⟨_, rfl, t + 1, by rw [if_pos hgt], by omega, fun j hj => ?_, fun j hj => ?_⟩
      · rcases Nat.lt_or_ge j (t + 1) with h | h
        · exact le_of_lt (lt_of_le_of_lt (hk2 j h) hgt)
        · have : j = t + 1 := by omega
          subst this; exact le_refl _
      · exact lt_of_le_of_lt (hk2 j hj) hgt
    · refine ⟨_, rfl, k, by rw [if_neg hgt], by omega, fun j hj => ?_, hk3⟩
      rcases Nat.lt_or_ge j (t + 1) with h | h
      · exact hk2 j h
      · have : j = t + 1 := by omega
        subst this; exact le_of_not_gt hgt)
  refine ⟨k, e, ?_⟩
  have : a.nc - 1 + 1 = a.nc := by omega
  rwa [this] at hk

theorem argmax_ok {o : OutputLayer} (hc : 0 < o.a.nc) :
    ∃ r, o.argmax = .ok r ∧ r.nr = o.a.nr ∧ r.nc = 2 ∧
      ∀ i < o.a.nr, ∃ k : Nat, r.f i 0 = (k : ℝ) ∧ r.f i 1 = o.a.f i k ∧ Spec.FirstMax (o.a.f i) o.a.nc k := by
  unfold OutputLayer.argmax
  obtain ⟨r, e, h1, h2, h3⟩ := loop_inv (n := o.a.nr) (body := fun i (r : Mat ℝ) => (do
      let s ← OutputLayer.argmaxRow o.a i
      let r ← r.setAt i 0 (s.2 : ℝ)
      r.setAt i 1 s.1 : Res _)) (s := Mat.of o.a.nr 2 (fun _ _ => 0))
    (fun t r => r.nr = o.a.nr ∧ r.nc = 2 ∧
      ∀ i < t, ∃ k : Nat, r.f i 0 = (k : ℝ) ∧ r.f i 1 = o.a.f i k ∧ Spec.FirstMax (o.a.f i) o.a.nc k)
    ⟨rfl, rfl, fun i hi => by omega⟩ (by
    rintro t r ht ⟨h1, h2, h3⟩
    obtain ⟨k, ek, hk⟩ := argmaxRow_ok ht hc
    rw [ek]
    simp only [ok_bind]
    rw [Mat.setAt_ok _ rfl (show (0 : Int) = ((0 : Nat) : Int) from rfl) (by rw [h1]; exact ht) (by omega), ok_bind,
      Mat.setAt_ok _ rfl (show (1 : Int) = ((1 : Nat) : Int) from rfl) (by rw [Mat.of_nr, h1]; exact ht) (by rw [Mat.of_nc]; omega)]
    refine ⟨_, rfl, h1, h2, fun i hi => ?_⟩
    simp only [Mat.of_nr, Mat.of_nc]
    by_cases hit : i = t
    · subst hit
      refine ⟨k, ?_, ?_, hk⟩
      · rw [Mat.of_f' (by omega) (by omega), if_neg (by omega), Mat.of_f' (by omega) (by omega), if_pos ⟨rfl, rfl⟩]
      · rw [Mat.of_f' (by omega) (by omega), if_pos ⟨rfl, rfl⟩]
    · obtain ⟨k', a1, a2, a3⟩ := h3 i (by omega)
      refine ⟨k', ?_, ?_, a3⟩
      · rw [Mat.of_f' (by omega) (by omega), if_neg (by omega), Mat.of_f' (by omega) (by omega), if_neg (by omega), a1]
      · rw [Mat.of_f' (by omega) (by omega), if_neg (by omega), Mat.of_f' (by omega) (by omega), if_neg (by omega), a2])
  exact ⟨r, e, h1, h2, h3⟩

/-- **C32.** `predict` on a well-formed dense network returns two columns: the smallest index of a maximal output, and that maximum. -/
theorem C32_predict {junk : Nat → Nat → ℝ} {s : Store} {n : Net} {p q : Nat} {x : Mat ℝ} (h : n.WF s p q) (hr : 0 < x.nr)
    (hc : x.nc = p) : ∃ r s' n', n.predict junk s x = .ok (r, s', n') ∧ r.nr = x.nr ∧ r.nc = 2 ∧
      n'.getresult = Spec.denseNet (n.params s) x ∧
      ∀ i < x.nr, ∃ k : Nat, r.f i 0 = (k : ℝ) ∧ r.f i 1 = (Spec.denseNet (n.params s) x).f i k ∧
        Spec.FirstMax ((Spec.denseNet (n.params s) x).f i) q k := by
  obtain ⟨s', n', e, hb, hres, ha, _⟩ := Net.forwardprop_ok (junk := junk) h hr hc
  have hd := outL_dims (Ls := n.layers s) (x := x) (q := q) (by rw [hc]; exact h.fits)
  have hq : 0 < q := fits_pos h.pos h.fits
  obtain ⟨r, er, h1, h2, h3⟩ := argmax_ok (o := n'.output) (by rw [ha, hd.2]; exact hq)
  refine ⟨r, s', { n' with result := outL (n.layers s) x }, ?_, by rw [h1, ha, hd.1], h2, (outL_eq_denseNet _ _), ?_⟩
  · unfold Net.predict
    rw [e, ok_bind]
    simp only
    rw [er, ok_bind]
  · intro i hi
    obtain ⟨k, a1, a2, a3⟩ := h3 i (by rw [ha, hd.1]; exact hi)
    rw [ha, hd.2] at a3
    rw [ha] at a2
    rw [outL_eq_denseNet] at a2 a3
    exact ⟨k, a1, a2, a3⟩

/-- The output of an arbitrary network state can be asked for its argmax as long as it has a column; without columns it throws (if there is
any row). -/
theorem C32_argmax (o : OutputLayer) :
    (0 < o.a.nc → ∃ r, o.argmax = .ok r ∧ r.nr = o.a.nr ∧ r.nc = 2 ∧
      ∀ i < o.a.nr, ∃ k : Nat, r.f i 0 = (k : ℝ) ∧ r.f i 1 = o.a.f i k ∧ Spec.FirstMax (o.a.f i) o.a.nc k) ∧
    (o.a.nc = 0 → 0 < o.a.nr → o.argmax = .error .throw) := by
  refine ⟨argmax_ok, fun h0 h1 => ?_⟩
  unfold OutputLayer.argmax
  refine loop_error (k := 0) (fun _ => Mat.of o.a.nr 2 (fun _ _ => 0)) rfl h1 (fun i hi => by omega) ?_
  unfold OutputLayer.argmaxRow Mat.at'
  rw [if_neg (by omega)]
  rfl

/-! ## C38 -/

theorem setlrate_store (r : ℝ) : ∀ (ps : List Nat) (s : Store) (q : Nat),
    ps.foldl (fun s p => s.put p ((s p).setlrate r)) s q = if q ∈ ps then (s q).setlrate r else s q
  | [], s, q => by simp
  | p :: ps, s, q => by
    rw [List.foldl_cons, setlrate_store r ps]
    by_cases h1 : q = p
    · subst h1
      rw [put_same, if_pos (List.mem_cons_self ..)]
      split <;> rfl
    · rw [put_other h1]
      simp [h1]

/-- **C38.** `setlrate(r)` sets the learning rate of the input layer, of every hidden layer (of whatever kind) and of the output layer to `r`
and changes nothing else, in this network or in any other layer object. -/
theorem C38_setlrate (s : Store) (n : Net) (r : ℝ) :
    (n.setlrate s r).2.input = { n.input with lrate := r } ∧
    (n.setlrate s r).2.output = { n.output with lrate := r } ∧
    (n.setlrate s r).2 = { n with input := (n.setlrate s r).2.input, output := (n.setlrate s r).2.output } ∧
    (∀ k ∈ n.hidden, (n.setlrate s r).1 k = { s k with base := { (s k).base with lrate := r } }) ∧
    (∀ k, k ∉ n.hidden → (n.setlrate s r).1 k = s k) := by
  refine ⟨rfl, rfl, rfl, fun id hid => ?_, fun id hid => ?_⟩
  · show n.hidden.foldl (fun s p => s.put p ((s p).setlrate r)) s id = _
    rw [setlrate_store, if_pos hid]
    rfl
  · show n.hidden.foldl (fun s p => s.put p ((s p).setlrate r)) s id = _
    rw [setlrate_store, if_neg hid]

/-! ## C55 -/

/-- What training has produced in a layer: everything except the caches of the last forward pass. -/
structure Layer.SameModel (L M : Layer) : Prop where
  W : M.W = L.W
  grad : M.grad = L.grad
  delta : M.delta = L.delta
  lrate : M.lrate = L.lrate
  lambda : M.lambda = L.lambda
  actfunc : M.actfunc = L.actfunc

/-- A prediction call: `forwardprop x` or `predict x`. -/
inductive Query where
  | forwardprop (x : Mat ℝ)
  | predict (x : Mat ℝ)

/-- The samples a call is given. -/
def Query.samples : Query → Mat ℝ
  | .forwardprop x => x
  | .predict x => x

/-- Executing a call: result and new state. -/
def Query.run (junk : Nat → Nat → ℝ) (s : Store) (n : Net) : Query → Res (Mat ℝ × Store × Net)
  | .forwardprop x => n.forwardprop junk s x
  | .predict x => n.predict junk s x

/-- Executing a sequence of calls. -/
def Query.runAll (junk : Nat → Nat → ℝ) : List Query → Store → Net → Res (Store × Net)
  | [], s, n => .ok (s, n)
  | c :: cs, s, n => do
    let (_, s, n) ← c.run junk s n
    runAll junk cs s n

theorem fwdL_sameModel : ∀ (Ls : List Layer) (x : Mat ℝ), List.Forall₂ Layer.SameModel Ls (fwdL Ls x)
  | [], _ => .nil
  | L :: Ls, x => .cons ⟨rfl, rfl, rfl, rfl, rfl, rfl⟩ (fwdL_sameModel Ls _)

theorem sameModel_trans {Ls Ms Ns : List Layer} (h1 : List.Forall₂ Layer.SameModel Ls Ms) (h2 : List.Forall₂ Layer.SameModel Ms Ns) :
    List.Forall₂ Layer.SameModel Ls Ns := by
  induction h1 generalizing Ns with
  | nil => cases h2; exact .nil
  | cons h _ ih =>
    cases h2 with
    | cons h' t' => exact .cons ⟨h'.W.trans h.W, h'.grad.trans h.grad, h'.delta.trans h.delta, h'.lrate.trans h.lrate, h'.lambda.trans h.lambda,
        h'.actfunc.trans h.actfunc⟩ (ih t')

theorem sameModel_params {Ls Ms : List Layer} (h : List.Forall₂ Layer.SameModel Ls Ms) :
    Ms.map (fun L => (L.actfunc.act, L.W)) = Ls.map (fun L => (L.actfunc.act, L.W)) := by
  induction h with
  | nil => rfl
  | cons h _ ih => rw [List.map_cons, List.map_cons, ih, h.W, h.actfunc]

theorem sameModel_W {Ls Ms : List Layer} (h : List.Forall₂ Layer.SameModel Ls Ms) : Ms.map (·.W) = Ls.map (·.W) := by
  induction h with
  | nil => rfl
  | cons h _ ih => rw [List.map_cons, List.map_cons, ih, h.W]

theorem query_ok {junk : Nat → Nat → ℝ} {s : Store} {n : Net} {p q : Nat} {c : Query} (h : n.WF s p q) (hr : 0 < c.samples.nr)
    (hc : c.samples.nc = p) : ∃ r s' n', c.run junk s n = .ok (r, s', n') ∧ n'.WF s' p q ∧
      List.Forall₂ Layer.SameModel (n.layers s) (n'.layers s') ∧ n.SameConf n' ∧ (∀ r, r ∉ n.hidden → s' r = s r) := by
  cases c with
  | forwardprop x =>
    replace hc : x.nc = p := hc
    replace hr : 0 < x.nr := hr
    obtain ⟨s', n', e, hb, _⟩ := Net.forwardprop_ok (junk := junk) h hr hc
    exact ⟨_, s', n', e, hb.wf h (by rw [fwdL_W]; exact h.fits), by rw [hb.layers]; exact fwdL_sameModel _ _, hb.conf, hb.frame⟩
  | predict x =>
    replace hc : x.nc = p := hc
    replace hr : 0 < x.nr := hr
    obtain ⟨s', n', e, hb, hres, ha, _⟩ := Net.forwardprop_ok (junk := junk) h hr hc
    have hd := outL_dims (Ls := n.layers s) (x := x) (q := q) (by rw [show x.nc = p from hc]; exact h.fits)
    have hq : 0 < q := fits_pos h.pos h.fits
    obtain ⟨r, er, h1, h2, h3⟩ := argmax_ok (o := n'.output) (by rw [ha, hd.2]; exact hq)
    have hb' : Net.Becomes s n s' { n' with result := outL (n.layers s) x } (fwdL (n.layers s) x) :=
      ⟨⟨hb.conf.1, hb.conf.2, hb.conf.3, hb.conf.4, hb.conf.5⟩, hb.layers, hb.dense, hb.frame⟩
    refine ⟨r, s', { n' with result := outL (n.layers s) x }, ?_, hb'.wf h (by rw [fwdL_W]; exact h.fits),
      by rw [hb'.layers]; exact fwdL_sameModel _ _, hb'.conf, hb'.frame⟩
    show n.predict junk s x = _
    unfold Net.predict
    rw [e, ok_bind]
    simp only
    rw [er, ok_bind]

/-- **C55.** Any sequence of `forwardprop` and `predict` calls with inputs of the right width succeeds and leaves every layer's weights,
gradient, delta, learning rate, lambda and activation as they were, and does not touch any other layer object. -/
theorem C55_model_unchanged {junk : Nat → Nat → ℝ} : ∀ (cs : List Query) {s : Store} {n : Net} {p q : Nat}, n.WF s p q →
    (∀ c ∈ cs, 0 < c.samples.nr ∧ c.samples.nc = p) →
    ∃ s' n', Query.runAll junk cs s n = .ok (s', n') ∧ n'.WF s' p q ∧ List.Forall₂ Layer.SameModel (n.layers s) (n'.layers s') ∧
      n.SameConf n' ∧ (∀ r, r ∉ n.hidden → s' r = s r)
  | [], s, n, p, q, h, _ => ⟨s, n, rfl, h, List.forall₂_same.2 (fun L _ => ⟨rfl, rfl, rfl, rfl, rfl, rfl⟩), .rfl, fun _ _ => rfl⟩
  | c :: cs, s, n, p, q, h, hcs => by
    obtain ⟨r, s1, n1, e, hw, hm, hcf, hfr⟩ := query_ok (junk := junk) h (hcs c (by simp)).1 (hcs c (by simp)).2
    obtain ⟨s2, n2, e2, hw2, hm2, hcf2, hfr2⟩ := C55_model_unchanged cs hw (fun c hc => hcs c (List.mem_cons_of_mem _ hc))
    refine ⟨s2, n2, ?_, hw2, sameModel_trans hm hm2, hcf.trans hcf2, fun r hr => ?_⟩
    · unfold Query.runAll
      rw [e, ok_bind]
      exact e2
    · rw [hfr2 r (by rw [hcf.hidden]; exact hr), hfr r hr]

/-- **C55.** A call returns the same result before and after any sequence of other prediction calls. -/
theorem C55_repeatable {junk : Nat → Nat → ℝ} (cs : List Query) (c : Query) {s s1 s2 s3 : Store} {n n1 n2 n3 : Net} {p q : Nat} {r1 r2 : Mat ℝ}
    (h : n.WF s p q) (hcs : ∀ c ∈ cs, 0 < c.samples.nr ∧ c.samples.nc = p) (hr : 0 < c.samples.nr) (hc : c.samples.nc = p)
    (h1 : c.run junk s n = .ok (r1, s1, n1)) (h2 : Query.runAll junk cs s n = .ok (s2, n2))
    (h3 : c.run junk s2 n2 = .ok (r2, s3, n3)) : r2 = r1 := by
  obtain ⟨_, _, e, hw, hm, _⟩ := C55_model_unchanged (junk := junk) cs h hcs
  rw [e] at h2; cases h2
  have hout : ∀ x, outL (n2.layers s2) x = outL (n.layers s) x := fun x => by
    rw [outL_eq_denseNet, outL_eq_denseNet, sameModel_params hm]
  cases c with
  | forwardprop x =>
    replace hc : x.nc = p := hc
    replace hr : 0 < x.nr := hr
    obtain ⟨_, _, e1, _⟩ := Net.forwardprop_ok (junk := junk) h hr hc
    obtain ⟨_, _, e2, _⟩ := Net.forwardprop_ok (junk := junk) hw hr hc
    replace h1 : n.forwardprop junk s x = _ := h1
    replace h3 : n2.forwardprop junk s2 x = _ := h3
    rw [e1] at h1; rw [e2] at h3
    cases h1; cases h3
    exact hout x
  | predict x =>
    replace hc : x.nc = p := hc
    replace hr : 0 < x.nr := hr
    obtain ⟨_, n4, e1, _, _, ha1, _⟩ := Net.forwardprop_ok (junk := junk) h hr hc
    obtain ⟨_, n5, e2, _, _, ha2, _⟩ := Net.forwardprop_ok (junk := junk) hw hr hc
    replace h1 : n.predict junk s x = _ := h1
    replace h3 : n2.predict junk s2 x = _ := h3
    unfold Net.predict at h1 h3
    rw [e1, ok_bind] at h1
    rw [e2, ok_bind] at h3
    have haa : n5.output.a = n4.output.a := by
      rw [ha1, ha2]; exact hout x
    have : n5.output.argmax = n4.output.argmax := by
      unfold OutputLayer.argmax
      rw [haa]
    simp only [this] at h3
    simp only at h1
    cases hh : n4.output.argmax with
    | error e => rw [hh] at h1; cases h1
    | ok v =>
      rw [hh, ok_bind] at h1 h3
      cases h1; cases h3
      rfl

/-! ## A concrete network that meets the hypotheses -/

/-- A dense layer with the given weights. -/
def exLayer (act : ActFunc ℝ) (W : Mat ℝ) : Layer :=
  { Layer.default with lrate := 1 / 10, actfunc := act, W := W, grad := W.smul 0 }

/-- A store with one sigmoid layer, 2 inputs, 3 units, under the name 7. -/
def exStore : Store := fun _ => ⟨exLayer Act.sigmoid (Mat.of 3 3 (fun i j => (i : ℝ) - j)), .dense⟩

/-- A 2-3-2 network with a quadratic output. -/
def exNet : Net :=
  { result := .empty, cost := Quadratic.cost, costd := Quadratic.costd, input := exLayer Act.identity .empty, hidden := [7],
    output := { exLayer Act.identity (Mat.of 4 2 (fun i j => (i : ℝ) + j)) with cost := Quadratic.cost, costd := Quadratic.costd, y := .empty } }

theorem exNet_wf : exNet.WF exStore 2 2 := by
  refine ⟨by simp [exNet], fun _ _ => rfl, by omega, ?_⟩
  simp [Net.layers, Net.hiddenLayers, exNet, exStore, exLayer, Spec.Fits]

example : ∃ (s : Store) (n : Net) (x : Mat ℝ), n.WF s 2 2 ∧ 0 < x.nr ∧ x.nc = 2 ∧ n.hidden ≠ [] :=
  ⟨exStore, exNet, Mat.of 5 2 (fun i j => (i : ℝ) * j), exNet_wf, by simp, by simp, by simp [exNet]⟩

end
end Nnet.NN
