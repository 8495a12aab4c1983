import Verif.NN.FloatLemmas
/-!
# C73: a NaN weight
-/
namespace Nnet.NN.Flt
open FV Arith Ieee

/-! ## Specification -/
namespace Spec

/-- A call on a network. -/
inductive Op (F : Type) [Arith F] where
  | forwardprop (x : Mat F)
  | backprop (y : Mat F)
  | update
  | updateWith (ograd : Mat F) (hgrad : List (Mat F))
  | setlrate (r : F)
  | predict (sample : Mat F)

/-- The network after the call. -/
def Op.run {F : Type} [Arith F] : Op F → Net F → Res (Net F)
  | .forwardprop x, n => do let (_, n) ← n.forwardprop x; .ok n
  | .backprop y, n => n.backprop y
  | .update, n => n.update
  | .updateWith og hg, n => n.updateWith og hg
  | .setlrate r, n => .ok (n.setlrate r)
  | .predict x, n => do let (_, n) ← n.predict x; .ok n

/-- A history of calls. -/
def runAll {F : Type} [Arith F] : List (Op F) → Net F → Res (Net F)
  | [], n => .ok n
  | o :: os, n => do let n ← o.run n; runAll os n

/-- A function that keeps NaN. -/
def KeepsNaN {F : Type} [Ieee F] (g : F → F) : Prop := ∀ x, NaN x → NaN (g x)

/-- A cost derivative that is NaN where the output is. -/
def CostKeepsNaN {F : Type} [Ieee F] (costd : MatFuncD F) : Prop :=
  ∀ y a z r, costd y a z = .ok r → r.nr = a.nr ∧ r.nc = a.nc ∧ ∀ i j, i < a.nr → j < a.nc → NaN (a.f i j) → NaN (r.f i j)

end Spec
open Spec

section
variable {F : Type} [Ieee F]

/-- The same layer for the purposes of NaN: same function and size, and no NaN weight has become something else. -/
structure Keeps (L L' : Layer F) : Prop where
  act : L'.actfunc = L.actfunc
  nr : L'.W.nr = L.W.nr
  nc : L'.W.nc = L.W.nc
  nan : ∀ i j, NaN (L.W.f i j) → NaN (L'.W.f i j)

/-- The same for a network. -/
structure KeepsNet (n n' : Net F) : Prop where
  hidden : List.Forall₂ Keeps n.hidden n'.hidden
  output : Keeps n.output.toLayer n'.output.toLayer
  cost : n'.output.cost = n.output.cost
  costd : n'.output.costd = n.output.costd

theorem Keeps.of_eq {L L' : Layer F} (h1 : L'.actfunc = L.actfunc) (h2 : L'.W = L.W) : Keeps L L' := ⟨h1, by rw [h2], by rw [h2], fun i j h => by rw [h2]; exact h⟩
theorem Keeps.refl (L : Layer F) : Keeps L L := .of_eq rfl rfl
theorem Keeps.trans {L L' L'' : Layer F} (h : Keeps L L') (h' : Keeps L' L'') : Keeps L L'' :=
  ⟨h'.act.trans h.act, h'.nr.trans h.nr, h'.nc.trans h.nc, fun i j hn => h'.nan i j (h.nan i j hn)⟩

theorem forall2_refl : ∀ l : List (Layer F), List.Forall₂ Keeps l l
  | [] => .nil
  | L :: l => .cons (Keeps.refl L) (forall2_refl l)

theorem forall2_trans : ∀ {a b c : List (Layer F)}, List.Forall₂ Keeps a b → List.Forall₂ Keeps b c → List.Forall₂ Keeps a c
  | _, _, _, .nil, .nil => .nil
  | _, _, _, .cons h t, .cons h' t' => .cons (h.trans h') (forall2_trans t t')

theorem KeepsNet.refl (n : Net F) : KeepsNet n n := ⟨forall2_refl _, Keeps.refl _, rfl, rfl⟩
theorem KeepsNet.trans {a b c : Net F} (h : KeepsNet a b) (h' : KeepsNet b c) : KeepsNet a c :=
  ⟨forall2_trans h.hidden h'.hidden, h.output.trans h'.output, h'.cost.trans h.cost, h'.costd.trans h.costd⟩

theorem nan_inside {m : Mat F} {i j : Nat} (h : NaN (m.f i j)) : i < m.nr ∧ j < m.nc := by
  by_contra hc
  rw [Spec.NaN, m.out i j hc, val_zero] at h
  cases h

theorem updateWith_keeps {L L' : Layer F} {g : Mat F} (h : L.updateWith g = .ok L') : Keeps L L' := by
  obtain ⟨h1, _, _, _, _, _, _, _, h2, h3, _, _, h4⟩ := updateWith_spec h
  refine ⟨h1, h2, h3, fun i j hn => ?_⟩
  obtain ⟨hi, hj⟩ := nan_inside hn
  rw [Spec.NaN, h4 i j hi hj]
  exact sub_nan (.inl hn)

theorem forwardprop_keeps {L L' : Layer F} {pa a : Mat F} (h : L.forwardprop pa = .ok (a, L')) : Keeps L L' :=
  let h := (forwardprop_spec h).same
  .of_eq h.2.2.1 h.2.2.2.1

theorem backprop_keeps {L L' : Layer F} {d r : Mat F} (h : L.backprop d = .ok (r, L')) : Keeps L L' :=
  let h := (backprop_spec h).same
  .of_eq h.2.2.1 h.2.2.2.1

theorem hiddenForward_keeps : ∀ {Ls Ls' : List (Layer F)} {x r : Mat F}, Net.hiddenForward Ls x = .ok (r, Ls') → List.Forall₂ Keeps Ls Ls'
  | [], _, _, _, h => by cases h; exact .nil
  | L :: Ls, _, _, _, h => by
    obtain ⟨⟨a, L'⟩, h1, h⟩ := bind_eq_ok h
    obtain ⟨⟨b, Ls''⟩, h2, h⟩ := bind_eq_ok h
    cases h
    exact .cons (forwardprop_keeps h1) (hiddenForward_keeps h2)

theorem hiddenBackward_keeps : ∀ {Ls Ls' : List (Layer F)} {d r : Mat F}, Net.hiddenBackward Ls d = .ok (r, Ls') → List.Forall₂ Keeps Ls Ls'
  | [], _, _, _, h => by cases h; exact .nil
  | L :: Ls, _, _, _, h => by
    obtain ⟨⟨a, L'⟩, h1, h⟩ := bind_eq_ok h
    obtain ⟨⟨b, Ls''⟩, h2, h⟩ := bind_eq_ok h
    cases h
    exact .cons (backprop_keeps h2) (hiddenBackward_keeps h1)

theorem hiddenUpdate_keeps : ∀ {Ls Ls' : List (Layer F)}, Net.hiddenUpdate Ls = .ok Ls' → List.Forall₂ Keeps Ls Ls'
  | [], _, h => by cases h; exact .nil
  | L :: Ls, _, h => by
    obtain ⟨L', h1, h⟩ := bind_eq_ok h
    obtain ⟨Ls'', h2, h⟩ := bind_eq_ok h
    cases h
    exact .cons (updateWith_keeps h1) (hiddenUpdate_keeps h2)

theorem hiddenUpdateWith_keeps : ∀ {Ls Ls' : List (Layer F)} {gs : List (Mat F)}, Net.hiddenUpdateWith Ls gs = .ok Ls' → List.Forall₂ Keeps Ls Ls'
  | [], _, _, h => by cases h; exact .nil
  | L :: Ls, _, [], h => by cases h
  | L :: Ls, _, g :: gs, h => by
    obtain ⟨L', h1, h⟩ := bind_eq_ok h
    obtain ⟨Ls'', h2, h⟩ := bind_eq_ok h
    cases h
    exact .cons (updateWith_keeps h1) (hiddenUpdateWith_keeps h2)

theorem net_forwardprop_keeps {n n' : Net F} {x a : Mat F} (h : n.forwardprop x = .ok (a, n')) : KeepsNet n n' := by
  obtain ⟨⟨c, hid⟩, h1, h⟩ := bind_eq_ok h
  obtain ⟨⟨r, out⟩, h2, h⟩ := bind_eq_ok h
  cases h
  obtain ⟨h3, h4, h5, _⟩ := out_forwardprop_spec h2
  exact ⟨hiddenForward_keeps h1, .of_eq h3.same.2.2.1 h3.same.2.2.2.1, h4, h5⟩

theorem net_backprop_keeps {n n' : Net F} {y : Mat F} (h : n.backprop y = .ok n') : KeepsNet n n' := by
  obtain ⟨⟨c, out⟩, h1, h⟩ := bind_eq_ok h
  obtain ⟨⟨r, hid⟩, h2, h⟩ := bind_eq_ok h
  cases h
  have h3 := (out_backprop_spec h1).same
  exact ⟨hiddenBackward_keeps h2, .of_eq h3.2.2.1 h3.2.2.2.1, h3.2.2.2.2.2.2.2.1, h3.2.2.2.2.2.2.2.2⟩

theorem net_update_keeps {n n' : Net F} (h : n.update = .ok n') : KeepsNet n n' := by
  obtain ⟨L, h1, h⟩ := bind_eq_ok h
  obtain ⟨hid, h2, h⟩ := bind_eq_ok h
  cases h
  exact ⟨hiddenUpdate_keeps h2, updateWith_keeps h1, rfl, rfl⟩

theorem net_updateWith_keeps {n n' : Net F} {og : Mat F} {hg : List (Mat F)} (h : n.updateWith og hg = .ok n') : KeepsNet n n' := by
  obtain ⟨L, h1, h⟩ := bind_eq_ok h
  obtain ⟨hid, h2, h⟩ := bind_eq_ok h
  cases h
  exact ⟨hiddenUpdateWith_keeps h2, updateWith_keeps h1, rfl, rfl⟩

theorem setlrate_keeps (n : Net F) (r : F) : KeepsNet n (n.setlrate r) := by
  refine ⟨?_, .of_eq rfl rfl, rfl, rfl⟩
  show List.Forall₂ Keeps n.hidden (n.hidden.map fun L => { L with lrate := r })
  generalize n.hidden = l
  induction l with
  | nil => exact .nil
  | cons L l ih => exact .cons (.of_eq rfl rfl) ih

theorem predict_spec {n n' : Net F} {x am : Mat F} (h : n.predict x = .ok (am, n')) : ∃ a, n.forwardprop x = .ok (a, n') ∧ n'.output.argmax = .ok am := by
  obtain ⟨⟨a, n1⟩, h1, h⟩ := bind_eq_ok h
  obtain ⟨am', h2, h⟩ := bind_eq_ok h
  cases h
  exact ⟨a, h1, h2⟩

theorem run_keeps {o : Op F} {n n' : Net F} (h : o.run n = .ok n') : KeepsNet n n' := by
  cases o with
  | forwardprop x =>
    obtain ⟨⟨a, n1⟩, h1, h⟩ := bind_eq_ok h
    cases h
    exact net_forwardprop_keeps h1
  | backprop y => exact net_backprop_keeps h
  | update => exact net_update_keeps h
  | updateWith og hg => exact net_updateWith_keeps h
  | setlrate r => cases h; exact setlrate_keeps n r
  | predict x =>
    obtain ⟨⟨a, n1⟩, h1, h⟩ := bind_eq_ok h
    cases h
    obtain ⟨_, h1, _⟩ := predict_spec h1
    exact net_forwardprop_keeps h1

theorem runAll_keeps : ∀ {os : List (Op F)} {n n' : Net F}, runAll os n = .ok n' → KeepsNet n n'
  | [], n, _, h => by cases h; exact .refl n
  | o :: os, _, _, h => by
    obtain ⟨n1, h1, h⟩ := bind_eq_ok h
    exact (run_keeps h1).trans (runAll_keeps h)

theorem forall2_get {Ls Ls' : List (Layer F)} (h : List.Forall₂ Keeps Ls Ls') : ∀ {k : Nat} {L : Layer F}, Ls[k]? = some L → ∃ L', Ls'[k]? = some L' ∧ Keeps L L' := by
  induction h with
  | nil => intro k L h; simp at h
  | cons h _ ih =>
    intro k L hk
    cases k with
    | zero => simp only [List.getElem?_cons_zero, Option.some.injEq] at hk ⊢; subst hk; exact ⟨_, rfl, h⟩
    | succ k => simp only [List.getElem?_cons_succ] at hk ⊢; exact ih hk

/-- A weight that is NaN stays NaN: no sequence of calls of `forwardprop`, `backprop`, `update()`, `update(ograd, hgrad)`, `setlrate` and `predict`, hence no training, brings it back. -/
theorem C73_persist {ops : List (Op F)} {n n' : Net F} (h : runAll ops n = .ok n') :
    (∀ i j, NaN (n.output.W.f i j) → NaN (n'.output.W.f i j)) ∧
    ∀ (k : Nat) (L : Layer F), n.hidden[k]? = some L → ∃ L', n'.hidden[k]? = some L' ∧ ∀ i j, NaN (L.W.f i j) → NaN (L'.W.f i j) := by
  have hk := runAll_keeps h
  refine ⟨hk.output.nan, fun k L hL => ?_⟩
  obtain ⟨L', h1, h2⟩ := forall2_get hk.hidden hL
  exact ⟨L', h1, h2.nan⟩

/-! ## Predictions -/

theorem val_one_ne : val (1 : F) ≠ fin 0 := by
  rw [val_one]
  intro h
  injection h with h
  norm_num at h

/-- A NaN bias makes the pre-activations of its unit NaN. -/
theorem bias_nan {L L' : Layer F} {pa a : Mat F} (h : Forwarded L pa a L') {j : Nat} (hn : NaN (L.W.f 0 j)) {i : Nat} (hi : i < pa.nr) : NaN (L'.z.f i j) := by
  obtain ⟨_, hj⟩ := nan_inside hn
  rw [Spec.NaN, h.z i j hi hj]
  refine dot_nan _ ⟨(L'.pa.f i 0, L.W.f 0 j), List.mem_map.2 ⟨0, by simp, rfl⟩, .inr ⟨?_, hn⟩⟩
  rw [h.bias i hi]
  exact val_one_ne

theorem best_nan {g : Nat → F} (h : NaN (g 0)) : ∀ j, best g j = (g 0, 0)
  | 0 => rfl
  | j + 1 => by
    show (if lt (best g j).1 (g (j + 1)) = true then _ else _) = _
    rw [best_nan h j, if_neg]
    rw [lt_iff, show val (g 0, 0).1 = nan from h]
    exact Lt_irrefl_nan

theorem best_le (g : Nat → F) : ∀ j, (best g j).2 ≤ j ∧ (best g j).1 = g (best g j).2
  | 0 => ⟨le_refl 0, rfl⟩
  | j + 1 => by
    unfold best
    split
    · exact ⟨le_refl _, rfl⟩
    · obtain ⟨h1, h2⟩ := best_le g j
      exact ⟨by omega, h2⟩

theorem best_ne {g : Nat → F} {k : Nat} (hk : 0 < k) (h : NaN (g k)) : ∀ j, (best g j).2 ≠ k
  | 0 => by show 0 ≠ k; omega
  | j + 1 => by
    unfold best
    split
    · rename_i hl
      show j + 1 ≠ k
      rintro rfl
      rw [lt_iff, show val (g (j + 1)) = nan from h] at hl
      exact Lt_nan hl
    · exact best_ne hk h j

theorem predict_out {n n' : Net F} {x am : Mat F} (h : n.predict x = .ok (am, n')) :
    ∃ pa, Forwarded n.output.toLayer pa n'.output.a n'.output.toLayer ∧ am.nr = pa.nr ∧ (0 < n.output.W.nc → ∀ i, i < am.nr →
      am.f i 0 = lit ((best (n'.output.a.f i) (n.output.W.nc - 1)).2 : ℕ) ∧ am.f i 1 = (best (n'.output.a.f i) (n.output.W.nc - 1)).1) := by
  obtain ⟨a, h1, h2⟩ := predict_spec h
  obtain ⟨⟨c, hid⟩, h3, h1⟩ := bind_eq_ok h1
  obtain ⟨⟨r, out⟩, h4, h1⟩ := bind_eq_ok h1
  cases h1
  obtain ⟨hf, _⟩ := out_forwardprop_spec h4
  have ha : out.a = a := hf.a_eq
  have hnc : out.a.nc = n.output.W.nc := by rw [ha]; exact hf.a_nc
  have hnr : out.a.nr = c.nr := by rw [ha]; exact hf.a_nr
  refine ⟨c, by rw [show Net.output ⟨hid, out⟩ = out from rfl, ha]; exact hf, ?_, fun hp i hi => ?_⟩
  · by_cases hc : 0 < out.a.nc
    · exact (argmax_spec hc h2).1.trans hnr
    · exfalso
      have h0 : 0 < out.a.nr := by rw [hnr]; exact hf.pos.1
      unfold OutputLayer.argmax at h2
      rw [loop_error (k := 0) (e := .throw) (fun _ => Mat.of out.a.nr 2 (fun _ _ => (0 : F))) rfl h0 (fun i hi => by omega) ?_] at h2
      · cases h2
      · unfold argmaxRow Mat.at'
        rw [if_neg (by dsimp only; omega)]
        rfl
  · obtain ⟨h5, _, h6⟩ := argmax_spec (by show 0 < out.a.nc; omega) h2
    rw [← hnc]
    exact h6 i (by rw [h5] at hi; exact hi)

/-- A NaN in the bias of the first class, before any history of calls: `predict` answers class 0 with value NaN for every sample. (The output activation must keep NaN, as `identity` and `sigmoid` do: these are
the functions of the library's output layers.) -/
theorem C73_predict_first {ops : List (Op F)} {n m m' : Net F} {x am : Mat F} (hn : NaN (n.output.W.f 0 0)) (hact : KeepsNaN n.output.actfunc.act) (h : runAll ops n = .ok m)
    (hp : m.predict x = .ok (am, m')) : ∀ i, i < am.nr → am.f i 0 = lit 0 ∧ NaN (am.f i 1) := by
  have hk := runAll_keeps h
  have hn' := hk.output.nan 0 0 hn
  obtain ⟨_, hnc⟩ := nan_inside hn'
  obtain ⟨pa, hf, hr, h1⟩ := predict_out hp
  intro i hi
  have hz := bias_nan hf hn' (by omega : i < pa.nr)
  have ha : NaN (m'.output.a.f i 0) := by
    rw [hf.a_f i 0 (by omega) hnc, hk.output.act]
    exact hact _ hz
  obtain ⟨h2, h3⟩ := h1 (by omega) i hi
  rw [best_nan ha] at h2 h3
  exact ⟨by simpa using h2, by rw [h3]; exact ha⟩

/-- A NaN in the bias of another class `j`: `predict` answers that class for no sample. -/
theorem C73_predict_other {ops : List (Op F)} {n m m' : Net F} {x am : Mat F} {j : Nat} (hj : 0 < j) (hn : NaN (n.output.W.f 0 j)) (hact : KeepsNaN n.output.actfunc.act) (h : runAll ops n = .ok m)
    (hp : m.predict x = .ok (am, m')) : ∀ i, i < am.nr → ∃ c : ℕ, c < n.output.W.nc ∧ c ≠ j ∧ am.f i 0 = lit c := by
  have hk := runAll_keeps h
  have hn' := hk.output.nan 0 j hn
  obtain ⟨_, hnc⟩ := nan_inside hn'
  obtain ⟨pa, hf, hr, h1⟩ := predict_out hp
  intro i hi
  have hz := bias_nan hf hn' (by omega : i < pa.nr)
  have ha : NaN (m'.output.a.f i j) := by
    rw [hf.a_f i j (by omega) hnc, hk.output.act]
    exact hact _ hz
  obtain ⟨h2, h3⟩ := h1 (by omega) i hi
  refine ⟨_, ?_, best_ne hj ha _, h2⟩
  have := (best_le (m'.output.a.f i) (m.output.W.nc - 1)).1
  rw [← hk.output.nc]
  omega

/-! ## Spreading -/

theorem divN_nan {m : Mat F} {n i j : Nat} (hi : i < m.nr) (hj : j < m.nc) (h : NaN (m.f i j)) : NaN ((divN m n).f i j) := by
  rw [divN, Spec.NaN, Mat.map_f' hi hj]
  exact div_nan (.inl h)

theorem zip_nan {g : F → F → F} {a b r : Mat F} (hg : ∀ x y, NaN x → NaN (g x y)) (h : Mat.zip g a b = .ok r) {i j : Nat} (hi : i < a.nr) (hj : j < a.nc) (hn : NaN (a.f i j)) :
    NaN (r.f i j) := by
  obtain ⟨_, _, _, _, h5⟩ := zip_spec h
  rw [h5 i j hi hj]
  exact hg _ _ hn

theorem costd_quadratic : CostKeepsNaN (F := F) Quadratic.costd := by
  intro y a z r h
  obtain ⟨d, h1, h⟩ := bind_eq_ok h
  cases h
  obtain ⟨_, _, h3, h4, _⟩ := zip_spec h1
  exact ⟨h3, h4, fun i j hi hj hn => divN_nan (by omega) (by omega) (zip_nan (fun x y h => sub_nan (.inl h)) h1 hi hj hn)⟩

theorem costd_kullback : CostKeepsNaN (F := F) KullbackLeibler.costd := by
  intro y a z r h
  obtain ⟨d, h1, h⟩ := bind_eq_ok h
  cases h
  obtain ⟨h1', h2', h3, h4, h5⟩ := zip_spec h1
  refine ⟨by simp only [divN, Mat.map_nr]; omega, by simp only [divN, Mat.map_nc]; omega, fun i j hi hj hn => divN_nan (by omega) (by omega) ?_⟩
  rw [h5 i j (by omega) (by omega)]
  exact div_nan (.inr hn)

theorem costd_softmax : CostKeepsNaN (F := F) Softmax.costd := by
  intro y a z r h
  obtain ⟨P, h1, h⟩ := bind_eq_ok h
  obtain ⟨d, h2, h⟩ := bind_eq_ok h
  cases h
  obtain ⟨s, h3, h1⟩ := bind_eq_ok h1
  obtain ⟨p1, p2, p3, p4, p5⟩ := zip_spec h1
  obtain ⟨q1, q2, q3, q4, q5⟩ := zip_spec h2
  simp only [exponential, Mat.map_nr, Mat.map_nc] at p1 p2 p3 p4 p5
  refine ⟨by simp only [divN, Mat.map_nr]; omega, by simp only [divN, Mat.map_nc]; omega, fun i j hi hj hn => divN_nan (by omega) (by omega) ?_⟩
  rw [q5 i j (by omega) (by omega), p5 i j hi hj, Mat.map_f' hi hj]
  exact sub_nan (.inl (mul_nan (.inl (exp_nan hn))))

/-- The gradient of a bias is NaN if a delta of its unit is. -/
theorem grad_nan {L L' : Layer F} {d r : Mat F} (h : Backed L d r L') {i j : Nat} (hi : i < d.nr) (hj : j < d.nc) (h0 : 0 < L.pa.nc) (hb : L.pa.f i 0 = 1) (hn : NaN (L'.delta.f i j)) :
    NaN (L'.grad.f 0 j) := by
  rw [h.grad 0 j h0 hj]
  refine add_nan (.inl (dot_nan _ ⟨(L.pa.f i 0, L'.delta.f i j), List.mem_map.2 ⟨i, by simpa using hi, rfl⟩, .inr ⟨?_, hn⟩⟩))
  rw [hb]
  exact val_one_ne

/-- A layer after `forwardprop` on data with rows. -/
def Ready (L : Layer F) : Prop := 0 < L.pa.nr ∧ 0 < L.pa.nc ∧ ∀ i, i < L.pa.nr → L.pa.f i 0 = 1

theorem Forwarded.ready {L L' : Layer F} {pa a : Mat F} (h : Forwarded L pa a L') : Ready L' := by
  have := h.pos
  have := h.pa_nr
  have := h.pa_nc
  exact ⟨by omega, by omega, fun i hi => h.bias i (by omega)⟩

/-- No row of weights of a layer, leaving aside the biases, consists of zeros. -/
def Spec.Connected {F : Type} [Ieee F] (L : Layer F) : Prop := ∀ k, 0 < k → k < L.W.nr → ∃ c, c < L.W.nc ∧ val (L.W.f k c) ≠ fin 0

/-- All elements are NaN. -/
def Spec.AllNaN {F : Type} [Ieee F] (m : Mat F) : Prop := ∀ i j, i < m.nr → j < m.nc → NaN (m.f i j)

theorem backprop_all {L L' : Layer F} {d r : Mat F} (h : Backed L d r L') (hr : Ready L) (hc : Connected L) (hd : AllNaN d) :
    AllNaN r ∧ ∀ j, j < L.W.nc → NaN (L'.grad.f 0 j) := by
  have hdelta : ∀ i j, i < d.nr → j < d.nc → NaN (L'.delta.f i j) := fun i j hi hj => by
    rw [h.delta i j hi hj]
    exact mul_nan (.inl (hd i j hi hj))
  have h1 := h.pa_nr
  have h2 := h.wnc
  refine ⟨fun i j hi hj => ?_, fun j hj => grad_nan h (i := 0) (by have := hr.1; omega) (by omega) hr.2.1 (hr.2.2 0 hr.1) (hdelta 0 j (by have := hr.1; omega) (by omega))⟩
  have h3 := h.r_nr
  have h4 := h.r_nc
  rw [h.r_f i j (by omega) hj]
  obtain ⟨c, hc1, hc2⟩ := hc (j + 1) (by omega) (by omega)
  exact dot_nan _ ⟨(L'.delta.f i c, L.W.f (j + 1) c), List.mem_map.2 ⟨c, by simp; omega, rfl⟩, .inl ⟨hdelta i c (by omega) (by omega), hc2⟩⟩

theorem hiddenForward_ready : ∀ {Ls Ls' : List (Layer F)} {x r : Mat F}, Net.hiddenForward Ls x = .ok (r, Ls') → List.Forall₂ (fun L L' => L'.W = L.W ∧ Ready L') Ls Ls'
  | [], _, _, _, h => by cases h; exact .nil
  | L :: Ls, _, _, _, h => by
    obtain ⟨⟨a, L'⟩, h1, h⟩ := bind_eq_ok h
    obtain ⟨⟨b, Ls''⟩, h2, h⟩ := bind_eq_ok h
    cases h
    have hf := forwardprop_spec h1
    exact .cons ⟨hf.same.2.2.2.1, hf.ready⟩ (hiddenForward_ready h2)

theorem hiddenBackward_all : ∀ {Ls Ls' : List (Layer F)} {d r : Mat F}, Net.hiddenBackward Ls d = .ok (r, Ls') → (∀ L ∈ Ls, Ready L ∧ Connected L) → AllNaN d →
    AllNaN r ∧ List.Forall₂ (fun L L' => L'.W = L.W ∧ ∀ j, j < L.W.nc → NaN (L'.grad.f 0 j)) Ls Ls'
  | [], _, _, _, h, _, hd => by cases h; exact ⟨hd, .nil⟩
  | L :: Ls, _, _, _, h, hc, hd => by
    obtain ⟨⟨a, Ls''⟩, h1, h⟩ := bind_eq_ok h
    obtain ⟨⟨b, L'⟩, h2, h⟩ := bind_eq_ok h
    cases h
    obtain ⟨h3, h4⟩ := hiddenBackward_all h1 (fun L hL => hc L (by simp [hL])) hd
    have hb := backprop_spec h2
    obtain ⟨h5, h6⟩ := backprop_all hb (hc L (by simp)).1 (hc L (by simp)).2 h3
    exact ⟨h5, .cons ⟨hb.same.2.2.2.1, h6⟩ h4⟩

theorem hiddenUpdate_all : ∀ {Ls Ls' : List (Layer F)}, Net.hiddenUpdate Ls = .ok Ls' →
    List.Forall₂ (fun L L' => L'.W.nc = L.W.nc ∧ ∀ j, NaN (L.grad.f 0 j) → NaN (L'.W.f 0 j)) Ls Ls'
  | [], _, h => by cases h; exact .nil
  | L :: Ls, _, h => by
    obtain ⟨L', h1, h⟩ := bind_eq_ok h
    obtain ⟨Ls'', h2, h⟩ := bind_eq_ok h
    cases h
    rw [update_eq] at h1
    obtain ⟨_, _, _, _, _, _, _, _, _, h3, h4, h5, h6⟩ := updateWith_spec h1
    refine .cons ⟨h3, fun j hn => ?_⟩ (hiddenUpdate_all h2)
    obtain ⟨hi, hj⟩ := nan_inside hn
    rw [h6 0 j (by omega) (by omega)]
    exact sub_nan (.inr (mul_nan (.inr hn)))

theorem forall2_comp {R S T : Layer F → Layer F → Prop} (hRST : ∀ a b c, R a b → S b c → T a c) : ∀ {a b c : List (Layer F)}, List.Forall₂ R a b → List.Forall₂ S b c → List.Forall₂ T a c
  | _, _, _, .nil, .nil => .nil
  | _, _, _, .cons h t, .cons h' t' => .cons (hRST _ _ _ h h') (forall2_comp hRST t t')

theorem forall2_right {R : Layer F → Layer F → Prop} {P : Layer F → Prop} {l l' : List (Layer F)} (h : List.Forall₂ R l l') : (∀ a b, a ∈ l → R a b → P b) → ∀ b ∈ l', P b := by
  induction h with
  | nil => intro _ b hb; simp at hb
  | cons hR _ ih =>
    intro hP b hb
    rcases List.mem_cons.1 hb with rfl | hb
    · exact hP _ _ (by simp) hR
    · exact ih (fun a b ha => hP a b (by simp [ha])) b hb

/-- One training step spreads a NaN bias of an output unit that every unit of the last hidden layer feeds: if no unit is cut off by zero weights, all biases of all hidden layers are NaN afterwards,
whatever the data. -/
theorem C73_spread {n n' : Net F} {x y : Mat F} {j : Nat} (hn : NaN (n.output.W.f 0 j)) (hact : KeepsNaN n.output.actfunc.act) (hcost : CostKeepsNaN n.output.costd)
    (hout : ∀ k, 0 < k → k < n.output.W.nr → val (n.output.W.f k j) ≠ fin 0) (hhid : ∀ L ∈ n.hidden, Connected L) (h : n.trainOn x y = .ok n') :
    ∀ L ∈ n'.hidden, ∀ c, c < L.W.nc → NaN (L.W.f 0 c) := by
  obtain ⟨⟨a, n1⟩, h1, h⟩ := bind_eq_ok h
  obtain ⟨n2, h2, h3⟩ := bind_eq_ok h
  obtain ⟨⟨c, hid⟩, h4, h1⟩ := bind_eq_ok h1
  obtain ⟨⟨r, out⟩, h5, h1⟩ := bind_eq_ok h1
  cases h1
  obtain ⟨⟨d, out2⟩, h6, h2⟩ := bind_eq_ok h2
  obtain ⟨⟨d', hid2⟩, h7, h2⟩ := bind_eq_ok h2
  cases h2
  obtain ⟨L3, h8, h3⟩ := bind_eq_ok h3
  obtain ⟨hid3, h9, h3⟩ := bind_eq_ok h3
  cases h3
  obtain ⟨hf, _, hcd, _⟩ := out_forwardprop_spec h5
  have hb := out_backprop_spec h6
  have hW : out.W = n.output.W := hf.same.2.2.2.1
  obtain ⟨_, hj⟩ := nan_inside hn
  -- the delta of unit j
  have hdelta : ∀ i, i < c.nr → NaN (out2.delta.f i j) := fun i hi => by
    have hcostd := hb.delta
    rw [show Net.output ⟨hid, out⟩ = out from rfl, hcd] at hcostd
    obtain ⟨_, _, hk⟩ := hcost _ _ _ _ hcostd
    have ha : out.a = a := hf.a_eq
    refine hk i j (by rw [ha, hf.a_nr]; exact hi) (by rw [ha, hf.a_nc]; exact hj) ?_
    rw [ha, hf.a_f i j hi hj]
    exact hact _ (bias_nan hf hn hi)
  have e1 : out.pa.nr = out2.delta.nr := hb.pa_nr
  have e2 : out.W.nc = out2.delta.nc := hb.wnc
  have e3 : out.pa.nr = c.nr := hf.pa_nr
  have e4 : d.nr = out2.delta.nr := hb.r_nr
  have e5 : d.nc + 1 = out.W.nr := hb.r_nc
  have hd : AllNaN d := fun i k hi hk => by
    rw [hb.r_f i k hi hk]
    refine dot_nan _ ⟨(out2.delta.f i j, out.W.f (k + 1) j), List.mem_map.2 ⟨j, ?_, rfl⟩, .inl ⟨hdelta i (by omega), ?_⟩⟩
    · rw [hW] at e2
      simp
      omega
    · rw [hW]
      exact hout (k + 1) (by omega) (by rw [← hW]; omega)
  have hready := hiddenForward_ready h4
  have hall : ∀ L ∈ hid, Ready L ∧ Connected L := forall2_right hready fun L L' hL hR => ⟨hR.2, fun k hk hk' => by
    rw [hR.1] at hk' ⊢
    exact hhid L hL k hk hk'⟩
  obtain ⟨_, hbk⟩ := hiddenBackward_all h7 hall hd
  have hcomp := forall2_comp (T := fun _ L' => ∀ c, c < L'.W.nc → NaN (L'.W.f 0 c)) (fun a b c hab hbc => by
    intro k hk
    rw [hbc.1, hab.1] at hk
    exact hbc.2 k (hab.2 k hk)) hbk (hiddenUpdate_all h9)
  exact forall2_right hcomp fun _ _ _ h => h

end
/-! ## A concrete case -/
noncomputable section

/-- `identity`. -/
def Witness.ident : ActFunc Witness.T := ⟨Act.identityF, Act.identityG⟩

/-- A matrix filled with one value. -/
def Witness.full (r c : Nat) (v : Witness.T) : Mat Witness.T := Mat.of r c fun _ _ => v

/-- A layer with one input and one unit. -/
def Witness.layer (W : Mat Witness.T) : Layer Witness.T := ⟨1, 0, Witness.ident, Mat.empty, Mat.empty, Mat.empty, Mat.empty, W, Mat.empty⟩

/-- One hidden unit and one quadratic output unit with a NaN bias; the other weights are 1. -/
def Witness.net : Net Witness.T :=
  ⟨[Witness.layer (Witness.full 2 1 1)],
   { Witness.layer (Mat.of 2 1 fun i _ => if i = 0 then Witness.mk nan else 1) with cost := Quadratic.cost, costd := Quadratic.costd, y := Mat.empty }⟩

theorem Witness.net_trains : ∃ n', Witness.net.trainOn (Witness.full 1 1 1) (Witness.full 1 1 1) = .ok n' := ⟨_, rfl⟩
theorem Witness.net_predicts : ∃ p, Witness.net.predict (Witness.full 1 1 1) = .ok p := ⟨_, rfl⟩

/-- The hypotheses of `C73_spread`, `C73_predict_first` and `C73_persist` (a training step and a prediction) are met. -/
example : (∀ n', Witness.net.trainOn (Witness.full 1 1 1) (Witness.full 1 1 1) = .ok n' → ∀ L ∈ n'.hidden, ∀ c, c < L.W.nc → NaN (L.W.f 0 c)) ∧
    (∀ p, Witness.net.predict (Witness.full 1 1 1) = .ok p → ∀ i, i < p.1.nr → p.1.f i 0 = lit 0) := by
  have h0 : NaN (Witness.net.output.W.f 0 0) := rfl
  refine ⟨fun n' h => C73_spread (j := 0) h0 (fun _ h => h) costd_quadratic ?_ ?_ h, fun p h => fun i hi => ?_⟩
  · intro k hk hk'
    have : k = 1 := by change k < 2 at hk'; omega
    subst this
    exact val_one_ne
  · intro L hL
    have : L = Witness.layer (Witness.full 2 1 1) := by simpa [Witness.net] using hL
    subst this
    intro k hk hk'
    have : k = 1 := by change k < 2 at hk'; omega
    subst this
    exact ⟨0, by show 0 < 1; omega, val_one_ne⟩
  · obtain ⟨am, m'⟩ := p
    exact (C73_predict_first (ops := []) h0 (fun _ h => h) rfl h i hi).1

end
end Nnet.NN.Flt
