import Verif.NN.PropsFloatAct
import Verif.NN.PropsGrad
/-! # What the operations of the network over any arithmetic compute, element by element -/
namespace Nnet.NN.Flt
open Arith Mat

section
variable {F : Type} [Arith F]

theorem zip_spec {g : F → F → F} {a b r : Mat F} (h : Mat.zip g a b = .ok r) :
    a.nr = b.nr ∧ a.nc = b.nc ∧ r.nr = a.nr ∧ r.nc = a.nc ∧ ∀ i j, i < a.nr → j < a.nc → r.f i j = g (a.f i j) (b.f i j) := by
  obtain ⟨h1, h2, rfl⟩ := zip_eq_ok h
  exact ⟨h1, h2, rfl, rfl, fun i j hi hj => of_f' hi hj⟩

theorem mul_spec {a b r : Mat F} (h : mul a b = .ok r) :
    a.nc = b.nr ∧ r.nr = a.nr ∧ r.nc = b.nc ∧ ∀ i j, i < a.nr → j < b.nc → r.f i j = dot ((List.range a.nc).map fun k => (a.f i k, b.f k j)) := by
  unfold mul at h
  split at h
  · rename_i h1
    cases h
    exact ⟨h1, rfl, rfl, fun i j hi hj => of_f' hi hj⟩
  · cases h

theorem addcol_spec {m r : Mat F} (h : addcol m = .ok r) :
    0 < m.nr ∧ 0 < m.nc ∧ r.nr = m.nr ∧ r.nc = m.nc + 1 ∧ (∀ i, i < m.nr → r.f i 0 = 1) ∧ ∀ i j, i < m.nr → j < m.nc → r.f i (j + 1) = m.f i j := by
  unfold addcol at h
  simp only at h
  unfold updSubmat at h
  split at h
  · rename_i h1
    unfold InView at h1
    simp only [of_nr, of_nc] at h1
    split at h
    · rename_i h2
      cases h
      refine ⟨by omega, by omega, rfl, rfl, fun i hi => ?_, fun i j hi hj => ?_⟩
      · rw [of_f' (by simpa using hi) (by simp), if_neg (by omega), of_f' hi (by omega)]
      · rw [of_f' (by simpa using hi) (by simpa using hj), if_pos (by simp only [of_nr, of_nc]; omega)]
        simp
    · cases h
  · cases h

theorem addcol_ok' {m : Mat F} (hr : 0 < m.nr) (hc : 0 < m.nc) : ∃ r, addcol m = .ok r := by
  unfold addcol
  simp only
  rw [updSubmat_ok (by unfold InView; simp only [of_nr, of_nc]; omega) (by simp only [of_nr, of_nc]; omega) (by simp only [of_nr, of_nc]; omega)]
  exact ⟨_, rfl⟩

theorem submat_spec {m r : Mat F} {r1 c1 r2 c2 : Int} (h : m.submat r1 c1 r2 c2 = .ok r) : m.InView r1 c1 r2 c2 ∧ r.nr = (r2 - r1 + 1).toNat ∧ r.nc = (c2 - c1 + 1).toNat ∧
    ∀ i j, i < r.nr → j < r.nc → r.f i j = m.f (i + r1.toNat) (j + c1.toNat) := by
  unfold submat at h
  split at h
  · rename_i h1
    cases h
    exact ⟨h1, rfl, rfl, fun i j hi hj => of_f' hi hj⟩
  · cases h

theorem shedCol0_spec {m r : Mat F} (h : m.shedCol0 = .ok r) : 0 < m.nc ∧ r.nr = m.nr ∧ r.nc = m.nc - 1 ∧ ∀ i j, i < r.nr → j < r.nc → r.f i j = m.f i (j + 1) := by
  unfold shedCol0 at h
  split at h
  · rename_i h1
    cases h
    exact ⟨h1, rfl, rfl, fun i j hi hj => of_f' hi hj⟩
  · cases h

/-- What `Layer::forwardprop` leaves behind. -/
structure Forwarded (L : Layer F) (pa : Mat F) (a : Mat F) (L' : Layer F) : Prop where
  same : L'.lrate = L.lrate ∧ L'.lambda = L.lambda ∧ L'.actfunc = L.actfunc ∧ L'.W = L.W ∧ L'.delta = L.delta ∧ L'.grad = L.grad
  pos : 0 < pa.nr ∧ 0 < pa.nc
  wnr : L.W.nr = pa.nc + 1
  pa_nr : L'.pa.nr = pa.nr
  pa_nc : L'.pa.nc = pa.nc + 1
  bias : ∀ i, i < pa.nr → L'.pa.f i 0 = 1
  data : ∀ i j, i < pa.nr → j < pa.nc → L'.pa.f i (j + 1) = pa.f i j
  z_nr : L'.z.nr = pa.nr
  z_nc : L'.z.nc = L.W.nc
  z : ∀ i j, i < pa.nr → j < L.W.nc → L'.z.f i j = dot ((List.range (pa.nc + 1)).map fun k => (L'.pa.f i k, L.W.f k j))
  a_eq : L'.a = a
  a_nr : a.nr = pa.nr
  a_nc : a.nc = L.W.nc
  a_f : ∀ i j, i < pa.nr → j < L.W.nc → a.f i j = L.actfunc.act (L'.z.f i j)

theorem forwardprop_spec {L L' : Layer F} {pa a : Mat F} (h : L.forwardprop pa = .ok (a, L')) : Forwarded L pa a L' := by
  unfold Layer.forwardprop at h
  obtain ⟨pa', h1, h⟩ := bind_eq_ok h
  obtain ⟨z, h2, h⟩ := bind_eq_ok h
  obtain ⟨hr, hc, p1, p2, p3, p4⟩ := addcol_spec h1
  obtain ⟨q1, q2, q3, q4⟩ := mul_spec h2
  cases h
  refine ⟨⟨rfl, rfl, rfl, rfl, rfl, rfl⟩, ⟨hr, hc⟩, by omega, p1, p2, p3, p4, by simpa [p1] using q2, q3, fun i j hi hj => ?_, rfl, by simpa [funcop, p1] using q2, q3, fun i j hi hj => ?_⟩
  · have := q4 i j (by omega) hj
    rw [p2] at this
    exact this
  · exact map_f' (by omega) (by omega)

/-- What `Layer::backprop` leaves behind. -/
structure Backed (L : Layer F) (d : Mat F) (r : Mat F) (L' : Layer F) : Prop where
  same : L'.lrate = L.lrate ∧ L'.lambda = L.lambda ∧ L'.actfunc = L.actfunc ∧ L'.W = L.W ∧ L'.pa = L.pa ∧ L'.z = L.z ∧ L'.a = L.a
  d_nr : d.nr = L.z.nr
  d_nc : d.nc = L.z.nc
  delta_nr : L'.delta.nr = d.nr
  delta_nc : L'.delta.nc = d.nc
  delta : ∀ i j, i < d.nr → j < d.nc → L'.delta.f i j = d.f i j * L.actfunc.actd (L.z.f i j)
  pa_nr : L.pa.nr = d.nr
  wnr : L.W.nr = L.pa.nc
  wnc : L.W.nc = d.nc
  grad_nr : L'.grad.nr = L.pa.nc
  grad_nc : L'.grad.nc = d.nc
  grad : ∀ i j, i < L.pa.nc → j < d.nc → L'.grad.f i j = dot ((List.range d.nr).map fun k => (L.pa.f k i, L'.delta.f k j)) + L.lambda * L.W.f i j
  r_nr : r.nr = d.nr
  r_nc : r.nc + 1 = L.W.nr
  r_f : ∀ i j, i < d.nr → j < r.nc → r.f i j = dot ((List.range d.nc).map fun k => (L'.delta.f i k, L.W.f (j + 1) k))

theorem backprop_spec {L L' : Layer F} {d r : Mat F} (h : L.backprop d = .ok (r, L')) : Backed L d r L' := by
  unfold Layer.backprop at h
  obtain ⟨delta, h1, h⟩ := bind_eq_ok h
  obtain ⟨g0, h2, h⟩ := bind_eq_ok h
  obtain ⟨g1, h3, h⟩ := bind_eq_ok h
  obtain ⟨p, h4, h⟩ := bind_eq_ok h
  obtain ⟨r', h5, h⟩ := bind_eq_ok h
  obtain ⟨a1, a2, a3, a4, a5⟩ := zip_spec h1
  obtain ⟨b1, b2, b3, b4⟩ := mul_spec h2
  obtain ⟨c1, c2, c3, c4, c5⟩ := zip_spec h3
  obtain ⟨d1, d2, d3, d4⟩ := mul_spec h4
  obtain ⟨e1, e2, e3, e4⟩ := submat_spec h5
  cases h
  simp only [tr_nr, tr_nc, funcop, map_nr, map_nc, smul] at *
  unfold InView at e1
  have g5 : ∀ i j, i < L.pa.nc → j < d.nc → g1.f i j = dot ((List.range d.nr).map fun k => (L.pa.f k i, delta.f k j)) + L.lambda * L.W.f i j := by
    intro i j hi hj
    have hm : (L.W.map (fun x => L.lambda * x)).f i j = L.lambda * L.W.f i j := map_f' (by omega) (by omega)
    rw [c5 i j (by omega) (by omega), b4 i j hi (by omega), hm, show L.pa.nr = d.nr by omega]
    congr 2
    refine List.map_congr_left fun k _ => ?_
    rw [tr_f]
  have hr5 : ∀ i j, i < d.nr → j < r.nc → r.f i j = dot ((List.range d.nc).map fun k => (delta.f i k, L.W.f (j + 1) k)) := by
    intro i j hi hj
    rw [e4 i j (by omega) hj, d4 _ _ (by omega) (by omega), a4]
    congr 1
    refine List.map_congr_left fun k _ => ?_
    rw [tr_f]
    simp
  refine ⟨⟨rfl, rfl, rfl, rfl, rfl, rfl, rfl⟩, a1, a2, a3, a4, fun i j hi hj => ?_, by omega, by omega, by omega, by dsimp only; omega, by dsimp only; omega, g5, by omega, by omega, hr5⟩
  rw [a5 i j hi hj, map_f' (by omega) (by omega)]

theorem updateWith_spec {L L' : Layer F} {g : Mat F} (h : L.updateWith g = .ok L') :
    L'.actfunc = L.actfunc ∧ L'.lrate = L.lrate ∧ L'.lambda = L.lambda ∧ L'.pa = L.pa ∧ L'.z = L.z ∧ L'.a = L.a ∧ L'.delta = L.delta ∧ L'.grad = L.grad ∧ L'.W.nr = L.W.nr ∧ L'.W.nc = L.W.nc ∧
    g.nr = L.W.nr ∧ g.nc = L.W.nc ∧ ∀ i j, i < L.W.nr → j < L.W.nc → L'.W.f i j = L.W.f i j - L.lrate * g.f i j := by
  unfold Layer.updateWith at h
  obtain ⟨W, h1, h⟩ := bind_eq_ok h
  obtain ⟨a1, a2, a3, a4, a5⟩ := zip_spec h1
  cases h
  simp only [smul, map_nr, map_nc] at a1 a2 a5
  refine ⟨rfl, rfl, rfl, rfl, rfl, rfl, rfl, rfl, a3, a4, a1.symm, a2.symm, fun i j hi hj => ?_⟩
  rw [a5 i j hi hj, map_f' (by omega) (by omega)]

theorem update_eq (L : Layer F) : L.update = L.updateWith L.grad := rfl

/-- What `OutputLayer::backprop` leaves behind. -/
structure OutBacked (o : OutputLayer F) (y : Mat F) (r : Mat F) (o' : OutputLayer F) : Prop where
  same : o'.lrate = o.lrate ∧ o'.lambda = o.lambda ∧ o'.actfunc = o.actfunc ∧ o'.W = o.W ∧ o'.pa = o.pa ∧ o'.z = o.z ∧ o'.a = o.a ∧ o'.cost = o.cost ∧ o'.costd = o.costd
  delta : o.costd y o.a o.z = .ok o'.delta
  pa_nr : o.pa.nr = o'.delta.nr
  wnr : o.W.nr = o.pa.nc
  wnc : o.W.nc = o'.delta.nc
  grad_nr : o'.grad.nr = o.pa.nc
  grad_nc : o'.grad.nc = o'.delta.nc
  grad : ∀ i j, i < o.pa.nc → j < o'.delta.nc → o'.grad.f i j = dot ((List.range o'.delta.nr).map fun k => (o.pa.f k i, o'.delta.f k j)) + o.lambda * o.W.f i j
  r_nr : r.nr = o'.delta.nr
  r_nc : r.nc + 1 = o.W.nr
  r_f : ∀ i j, i < r.nr → j < r.nc → r.f i j = dot ((List.range o'.delta.nc).map fun k => (o'.delta.f i k, o.W.f (j + 1) k))

theorem out_backprop_spec {o o' : OutputLayer F} {y r : Mat F} (h : o.backprop y = .ok (r, o')) : OutBacked o y r o' := by
  unfold OutputLayer.backprop at h
  obtain ⟨delta, h1, h⟩ := bind_eq_ok h
  obtain ⟨g0, h2, h⟩ := bind_eq_ok h
  obtain ⟨g1, h3, h⟩ := bind_eq_ok h
  obtain ⟨p, h4, h⟩ := bind_eq_ok h
  obtain ⟨r', h5, h⟩ := bind_eq_ok h
  obtain ⟨b1, b2, b3, b4⟩ := mul_spec h2
  obtain ⟨c1, c2, c3, c4, c5⟩ := zip_spec h3
  obtain ⟨d1, d2, d3, d4⟩ := mul_spec h4
  obtain ⟨e1, e2, e3, e4⟩ := shedCol0_spec h5
  cases h
  simp only [tr_nr, tr_nc, map_nr, map_nc, smul] at *
  have g5 : ∀ i j, i < o.pa.nc → j < delta.nc → g1.f i j = dot ((List.range delta.nr).map fun k => (o.pa.f k i, delta.f k j)) + o.lambda * o.W.f i j := by
    intro i j hi hj
    have hm : (o.W.map (fun x => o.lambda * x)).f i j = o.lambda * o.W.f i j := map_f' (by omega) (by omega)
    rw [c5 i j (by omega) (by omega), b4 i j hi (by omega), hm, show o.pa.nr = delta.nr by omega]
    congr 2
    refine List.map_congr_left fun k _ => ?_
    rw [tr_f]
  have hr5 : ∀ i j, i < r.nr → j < r.nc → r.f i j = dot ((List.range delta.nc).map fun k => (delta.f i k, o.W.f (j + 1) k)) := by
    intro i j hi hj
    rw [e4 i j hi hj, d4 _ _ (by omega) (by omega)]
    congr 1
    refine List.map_congr_left fun k _ => ?_
    rw [tr_f]
  exact ⟨⟨rfl, rfl, rfl, rfl, rfl, rfl, rfl, rfl, rfl⟩, h1, by dsimp only; omega, by omega, by dsimp only; omega, by dsimp only; omega, by dsimp only; omega, g5, by dsimp only; omega, by omega, hr5⟩

theorem out_forwardprop_spec {o o' : OutputLayer F} {pa a : Mat F} (h : o.forwardprop pa = .ok (a, o')) :
    Forwarded o.toLayer pa a o'.toLayer ∧ o'.cost = o.cost ∧ o'.costd = o.costd ∧ o'.y = o.y := by
  unfold OutputLayer.forwardprop at h
  obtain ⟨⟨r, L⟩, h1, h⟩ := bind_eq_ok h
  cases h
  exact ⟨forwardprop_spec h1, rfl, rfl, rfl⟩

/-- Row `i` of `OutputLayer::argmax`, as a fold over the columns. -/
def best (g : Nat → F) : Nat → F × Nat
  | 0 => (g 0, 0)
  | j + 1 => if lt (best g j).1 (g (j + 1)) then (g (j + 1), j + 1) else best g j

theorem argmaxRow_eq (a : Mat F) (i : Nat) (hi : i < a.nr) (hc : 0 < a.nc) : argmaxRow a i = .ok (best (a.f i) (a.nc - 1)) := by
  unfold argmaxRow
  rw [Mat.at_ok' (i := (i : Int)) (j := 0) (a := i) (b := 0) rfl rfl hi hc, ok_bind]
  refine loop_eq (best (a.f i)) rfl fun j hj => ?_
  rw [Mat.at_ok' (i := (i : Int)) (j := (j : Int) + 1) (a := i) (b := j + 1) rfl (by push_cast; rfl) hi (by omega), ok_bind]
  rfl

theorem argmax_spec {o : OutputLayer F} {am : Mat F} (hc : 0 < o.a.nc) (h : o.argmax = .ok am) :
    am.nr = o.a.nr ∧ am.nc = 2 ∧ ∀ i, i < o.a.nr → am.f i 0 = lit ((best (o.a.f i) (o.a.nc - 1)).2 : ℕ) ∧ am.f i 1 = (best (o.a.f i) (o.a.nc - 1)).1 := by
  unfold OutputLayer.argmax at h
  obtain ⟨s', h', p1, p2, p3⟩ := loop_inv (n := o.a.nr) (body := fun i r => do
    let s ← argmaxRow o.a i
    let r ← r.setAt i 0 (lit s.2)
    r.setAt i 1 s.1) (s := Mat.of o.a.nr 2 (fun _ _ => (0 : F)))
    (fun k m => m.nr = o.a.nr ∧ m.nc = 2 ∧ ∀ i, i < k → m.f i 0 = lit ((best (o.a.f i) (o.a.nc - 1)).2 : ℕ) ∧ m.f i 1 = (best (o.a.f i) (o.a.nc - 1)).1)
    ⟨rfl, rfl, fun i hi => by omega⟩ (fun i m hi ⟨q1, q2, q3⟩ => by
      rw [argmaxRow_eq _ _ hi hc, ok_bind, setAt_ok (i := (i : Int)) (j := 0) (a := i) (b := 0) _ rfl rfl (by omega) (by omega), ok_bind,
        setAt_ok (i := (i : Int)) (j := 1) (a := i) (b := 1) _ rfl rfl (by simp only [of_nr]; omega) (by simp only [of_nc]; omega)]
      refine ⟨_, rfl, q1, q2, fun k hk => ?_⟩
      simp only [of_nr, of_nc]
      have hkr : k < m.nr := by omega
      rw [of_f' hkr (by omega), of_f' hkr (by omega), of_f' hkr (by omega)]
      by_cases hki : k = i
      · subst hki
        simp
      · rw [if_neg (by omega), if_neg (by omega), if_neg (by omega), of_f' hkr (by omega), if_neg (by omega)]
        exact q3 k (by omega))
  rw [h'] at h
  cases h
  exact ⟨p1, p2, p3⟩

end
end Nnet.NN.Flt
