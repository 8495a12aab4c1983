import Verif.NN.PropsSpecial
import Verif.NN.PropsGrad
import Verif.NN.PropsPool
import Verif.NN.PropsSafe
import Mathlib.Tactic.Ring
/-!
# C123: training below a softmax layer
-/
namespace Nnet.NN
open Finset
noncomputable section

theorem hiddenBackward_append {junk : Nat → Nat → ℝ} (b : List Nat) : ∀ (a : List Nat) (s : Store) (d : Mat ℝ),
    Net.hiddenBackward junk (a ++ b) s d = (do let r ← bwGo junk a s d; Net.hiddenBackward junk b r.2 r.1)
  | [], _, _ => rfl
  | p :: ps, s, d => by
    simp only [List.cons_append, bwGo, Net.hiddenBackward, bind_assoc]
    congr 1
    funext v
    exact hiddenBackward_append b ps _ _

theorem outside_bwGo {junk : Nat → Nat → ℝ} {ps : List Nat} {s s' : Store} {d r : Mat ℝ} (h : bwGo junk ps s d = .ok (r, s')) : Outside ps s s' := by
  refine outside_backward (junk := junk) (d := d) ?_
  rw [hiddenBackward_eq, h]
  rfl

theorem hiddenUpdate_split (b : List Nat) : ∀ (a : List Nat) (s : Store), Net.hiddenUpdate (a ++ b) s = (do let s ← Net.hiddenUpdate a s; Net.hiddenUpdate b s)
  | [], _ => rfl
  | p :: ps, s => by
    simp only [List.cons_append, Net.hiddenUpdate, bind_assoc]
    congr 1
    funext v
    exact hiddenUpdate_split b ps _

theorem softmaxRows_pos {x : Mat ℝ} {i j : Nat} (hi : i < x.nr) (hj : j < x.nc) : 0 < (Spec.softmaxRows x).f i j := by
  unfold Spec.softmaxRows
  rw [Mat.of_f' hi hj]
  exact div_pos (Real.exp_pos _) (sumExp_pos (by omega) _)

theorem softmaxRows_sum {x : Mat ℝ} {i : Nat} (hi : i < x.nr) (hc : 0 < x.nc) : ∑ j ∈ range x.nc, (Spec.softmaxRows x).f i j = 1 := by
  have : ∑ j ∈ range x.nc, (Spec.softmaxRows x).f i j = ∑ j ∈ range x.nc, Real.exp (x.f i j) / ∑ k ∈ range x.nc, Real.exp (x.f i k) := sum_congr rfl fun j hj => Mat.of_f' hi (mem_range.1 hj)
  rw [this, ← Finset.sum_div, div_self (sumExp_pos hc _).ne']

/-- One step, with the row of probabilities that the softmax layer hands to the dense layer. -/
theorem soft_bias {junk : Nat → Nat → ℝ} {s s' : Store} {n n' : Net} {pre post : List Nat} {a b : Nat} {L Lb : Layer} {P x y : Mat ℝ} (hn : n.hidden = pre ++ a :: b :: post) (hnd : n.hidden.Nodup)
    (sa : s a = ⟨L, .dense⟩) (sb : s b = ⟨Lb, .softmax P⟩) (hnc : 0 < L.W.nc) (h : n.gradStep junk s x y = .ok (s', n')) :
    ∃ L' Lb' P' m, s' a = ⟨L', .dense⟩ ∧ s' b = ⟨Lb', .softmax P'⟩ ∧ n'.hidden = n.hidden ∧ L'.actfunc = L.actfunc ∧ L'.lambda = L.lambda ∧ L'.lrate = L.lrate ∧ L'.W.nr = L.W.nr ∧ L'.W.nc = L.W.nc ∧ 0 < m ∧ (pre = [] → m = x.nr) ∧
      ∃ ρ z : Nat → Nat → ℝ, (∀ i < m, ∀ j < L.W.nc, 0 < ρ i j) ∧ (∀ i < m, ∑ j ∈ range L.W.nc, ρ i j = 1) ∧
        ∀ j < L.W.nc, L'.W.f 0 j = L.W.f 0 j - L.lrate * (∑ i ∈ range m, ρ i j * L.actfunc.actd (z i j) + L.lambda * L.W.f 0 j) := by
  rw [hn] at hnd
  obtain ⟨-, hnd2, hdis⟩ := List.nodup_append.1 hnd
  have ha : a ∉ pre := fun h => hdis a h a (by simp) rfl
  have hb : b ∉ pre := fun h => hdis b h b (by simp) rfl
  rw [List.nodup_cons, List.nodup_cons] at hnd2
  have hab : a ≠ b := fun e => hnd2.1 (by simp [e])
  have ha' : a ∉ post := fun e => hnd2.1 (by simp [e])
  have hb' : b ∉ post := hnd2.2.1
  unfold Net.gradStep at h
  obtain ⟨⟨out, s1, n1⟩, hf, h⟩ := bind_eq_ok h
  obtain ⟨⟨s2, n2⟩, hbk, hu⟩ := bind_eq_ok h
  simp only at hbk hu
  -- forward
  unfold Net.forwardprop at hf
  simp only [InputLayer.forwardprop, hn, hiddenForward_append] at hf
  obtain ⟨⟨cur, t⟩, h1, hf⟩ := bind_eq_ok hf
  obtain ⟨⟨cur0, t0⟩, h0, h1⟩ := bind_eq_ok h1
  obtain ⟨⟨res, o1⟩, h2, hf⟩ := bind_eq_ok hf
  cases hf
  have ho := outside_forward h0
  simp only [Net.hiddenForward] at h1
  rw [ho a ha, sa] at h1
  obtain ⟨⟨v1, g1⟩, k1, h1⟩ := bind_eq_ok h1
  simp only at h1
  rw [put_other (Ne.symm hab), ho b hb, sb] at h1
  obtain ⟨⟨v2, g2⟩, k2, h1⟩ := bind_eq_ok h1
  unfold HLayer.forwardprop at k1 k2
  simp only at k1 k2
  obtain ⟨⟨v1', L1⟩, k3, k1⟩ := bind_eq_ok k1
  cases k1
  obtain ⟨v2', k4, k2⟩ := bind_eq_ok k2
  cases k2
  have hsz : 0 < cur0.nr ∧ 0 < cur0.nc ∧ L.W.nr = cur0.nc + 1 := by
    by_contra hne
    rw [(C28_layer L cur0).2 hne] at k3
    cases k3
  rw [Layer.forwardprop_ok hsz.1 hsz.2.1 hsz.2.2] at k3
  cases k3
  simp only at h1
  have ho1 := outside_forward h1
  have ta : t a = ⟨L.fwd cur0, .dense⟩ := by rw [ho1 a ha', put_other hab, put_same]
  have tb : t b = ⟨Lb, .softmax v2⟩ := by rw [ho1 b hb', put_same]
  -- backward
  unfold Net.backprop at hbk
  obtain ⟨⟨d, o2⟩, e1, hbk⟩ := bind_eq_ok hbk
  obtain ⟨s2', e2, hbk⟩ := bind_eq_ok hbk
  cases hbk
  simp only [hn, List.reverse_append, List.reverse_cons, List.append_assoc, List.cons_append, List.nil_append] at e2
  rw [hiddenBackward_append] at e2
  obtain ⟨⟨d1, t1⟩, e3, e2⟩ := bind_eq_ok e2
  have ob1 := outside_bwGo e3
  simp only [Net.hiddenBackward] at e2
  rw [ob1 b (by simpa using hb'), tb] at e2
  obtain ⟨⟨d2, g3⟩, e4, e2⟩ := bind_eq_ok e2
  simp only at e2
  rw [put_other hab, ob1 a (by simpa using ha'), ta] at e2
  obtain ⟨⟨d3, g4⟩, e5, e2⟩ := bind_eq_ok e2
  unfold HLayer.backprop at e4 e5
  simp only at e4 e5
  rw [show SoftmaxL.backprop d1 = .ok (Spec.softmaxRows d1) from softmaxL_ok d1, ok_bind] at e4
  cases e4
  obtain ⟨⟨d4, L2⟩, e6, e5⟩ := bind_eq_ok e5
  cases e5
  have hca := Layer.fwd_cached (L := L) (x := cur0) hsz.2.2
  have hdim : (Spec.softmaxRows d1).nr = cur0.nr ∧ (Spec.softmaxRows d1).nc = L.W.nc := by
    by_contra hne
    rw [dense_backprop_throw hne] at e6
    cases e6
  rw [Layer.backprop_ok hca hsz.1 (by show 2 ≤ L.W.nr; omega) hdim.1 hdim.2] at e6
  cases e6
  simp only at e2
  have ob2 := outside_backward e2
  have ua : s2 a = ⟨(L.fwd cur0).bwd (Spec.softmaxRows d1), .dense⟩ := by rw [ob2 a (by simpa using ha), put_same]
  have ub : s2 b = ⟨Lb, .softmax v2⟩ := by rw [ob2 b (by simpa using hb), put_other (Ne.symm hab), put_same]
  -- update
  unfold Net.update at hu
  obtain ⟨L3, -, hu⟩ := bind_eq_ok hu
  obtain ⟨s3, f2, hu⟩ := bind_eq_ok hu
  cases hu
  simp only [hn] at f2
  rw [hiddenUpdate_split] at f2
  obtain ⟨t3, f3, f2⟩ := bind_eq_ok f2
  have ou := outside_update f3
  simp only [Net.hiddenUpdate] at f2
  rw [ou a ha, ua] at f2
  obtain ⟨g5, f4, f2⟩ := bind_eq_ok f2
  rw [put_other (Ne.symm hab), ou b hb, ub] at f2
  obtain ⟨g6, f5, f2⟩ := bind_eq_ok f2
  cases f5
  unfold HLayer.update at f4
  simp only at f4
  obtain ⟨L4, f6, f4⟩ := bind_eq_ok f4
  cases f4
  have ou2 := outside_update f2
  have hW4 : L4 = { (L.fwd cur0).bwd (Spec.softmaxRows d1) with W := Mat.of L.W.nr L.W.nc (fun i j => L.W.f i j - L.lrate * ((L.fwd cur0).bwd (Spec.softmaxRows d1)).grad.f i j) } := by
    unfold Layer.update at f6
    obtain ⟨W', f7, f6⟩ := bind_eq_ok f6
    cases f6
    have hg1 : ((L.fwd cur0).bwd (Spec.softmaxRows d1)).grad.nr = L.W.nr := rfl
    have hg2 : ((L.fwd cur0).bwd (Spec.softmaxRows d1)).grad.nc = L.W.nc := rfl
    rw [Mat.sub_ok (a := ((L.fwd cur0).bwd (Spec.softmaxRows d1)).W) (b := Mat.smul ((L.fwd cur0).bwd (Spec.softmaxRows d1)).lrate ((L.fwd cur0).bwd (Spec.softmaxRows d1)).grad) (by rw [Mat.smul_nr]; exact hg1.symm) (by rw [Mat.smul_nc]; exact hg2.symm)] at f7
    cases f7
    congr 1
    refine Mat.of_congr fun i j hi hj => ?_
    rw [Mat.smul_f]
    rfl
  have hgr : ∀ j < L.W.nc, ((L.fwd cur0).bwd (Spec.softmaxRows d1)).grad.f 0 j = ∑ i ∈ range cur0.nr, (Spec.softmaxRows d1).f i j * L.actfunc.actd ((Spec.pre L.W cur0).f i j) + L.lambda * L.W.f 0 j := by
    intro j hj
    unfold Layer.bwd Layer.regGrad
    simp only
    rw [Mat.of_f' (by show 0 < L.W.nr; omega) (by exact hj)]
    show _ + L.lambda * _ = _
    unfold Layer.gradOf
    rw [Mat.of_f' (by show 0 < cur0.nc + 1; omega) (by show j < d1.nc; have : d1.nc = L.W.nc := hdim.2; omega)]
    congr 1
    refine sum_congr rfl (fun i hi => ?_)
    have hi : i < cur0.nr := mem_range.1 hi
    have h1 : (L.fwd cur0).pa.f i 0 = 1 := by
      show (ones1 cur0).f i 0 = 1
      unfold ones1
      rw [Mat.of_f' hi (by omega), if_pos rfl]
    rw [h1, one_mul]
    unfold Layer.dz
    rw [Mat.of_f' (by have := hdim.1; omega) (by have := hdim.2; omega)]
    rfl
  have hbias : ∀ j < L.W.nc, L4.W.f 0 j = L.W.f 0 j - L.lrate * (∑ i ∈ range cur0.nr, (Spec.softmaxRows d1).f i j * L.actfunc.actd ((Spec.pre L.W cur0).f i j) + L.lambda * L.W.f 0 j) := by
    intro j hj
    rw [← hgr j hj, hW4]
    simp only
    rw [Mat.of_f' (by omega) hj]
  have dn1 : d1.nr = cur0.nr := hdim.1
  have dn2 : d1.nc = L.W.nc := hdim.2
  refine ⟨L4, Lb, v2, cur0.nr, by rw [ou2 a ha', put_other hab, put_same], by rw [ou2 b hb', put_same], hn.symm ▸ rfl, by rw [hW4]; rfl, by rw [hW4]; rfl, by rw [hW4]; rfl, by rw [hW4]; rfl, by rw [hW4]; rfl, hsz.1, ?_,
    (Spec.softmaxRows d1).f, (Spec.pre L.W cur0).f, fun i hi j hj => softmaxRows_pos (by omega) (by omega), fun i hi => ?_, hbias⟩
  · rintro rfl
    cases h0
    rfl
  · rw [← softmaxRows_sum (x := d1) (i := i) (by omega) (by omega), dn2]

theorem soft_sum {L L' : Layer} {m : Nat} {ρ z : Nat → Nat → ℝ} (hid : L.actfunc = Act.identity) (hs : ∀ i < m, ∑ j ∈ range L.W.nc, ρ i j = 1)
    (hb : ∀ j < L.W.nc, L'.W.f 0 j = L.W.f 0 j - L.lrate * (∑ i ∈ range m, ρ i j * L.actfunc.actd (z i j) + L.lambda * L.W.f 0 j)) :
    ∑ j ∈ range L.W.nc, L'.W.f 0 j = (1 - L.lrate * L.lambda) * ∑ j ∈ range L.W.nc, L.W.f 0 j - L.lrate * m := by
  rw [sum_congr rfl (fun j hj => hb j (mem_range.1 hj)), sum_sub_distrib, ← mul_sum, sum_add_distrib, sum_comm, ← mul_sum]
  have : ∀ i ∈ range m, ∑ j ∈ range L.W.nc, ρ i j * L.actfunc.actd (z i j) = 1 := by
    intro i hi
    rw [← hs i (mem_range.1 hi)]
    refine sum_congr rfl (fun j hj => ?_)
    rw [hid]
    show _ * 1 = _
    rw [mul_one]
  rw [sum_congr rfl this]
  simp only [sum_const, card_range, nsmul_eq_mul, mul_one]
  ring

/-- **C123** (one step). Let a dense layer `a` without regularisation feed a softmax layer `b`, somewhere in a network whose other layers are of any kind, and let `forwardprop(x); backprop(y); update()` succeed. If the
derivative of the activation of `a` is positive everywhere then **every** bias of `a` goes down, whatever the data, the labels and the current error are. If `a` has no activation, the sum of its biases goes down by exactly
the learning rate times the number `m` of rows that reached it (the rows of the batch, if `a` is the first layer). -/
theorem C123_step {junk : Nat → Nat → ℝ} {s s' : Store} {n n' : Net} {pre post : List Nat} {a b : Nat} {L Lb : Layer} {P x y : Mat ℝ} (hn : n.hidden = pre ++ a :: b :: post) (hnd : n.hidden.Nodup)
    (sa : s a = ⟨L, .dense⟩) (sb : s b = ⟨Lb, .softmax P⟩) (hlam : L.lambda = 0) (hnc : 0 < L.W.nc) (h : n.gradStep junk s x y = .ok (s', n')) :
    ∃ L' Lb' P' m, s' a = ⟨L', .dense⟩ ∧ s' b = ⟨Lb', .softmax P'⟩ ∧ n'.hidden = n.hidden ∧ L'.actfunc = L.actfunc ∧ L'.lambda = 0 ∧ L'.lrate = L.lrate ∧ L'.W.nr = L.W.nr ∧ L'.W.nc = L.W.nc ∧ 0 < m ∧ (pre = [] → m = x.nr) ∧
      ((∀ v, 0 < L.actfunc.actd v) → 0 < L.lrate → ∀ j < L.W.nc, L'.W.f 0 j < L.W.f 0 j) ∧
      (L.actfunc = Act.identity → ∑ j ∈ range L.W.nc, L'.W.f 0 j = ∑ j ∈ range L.W.nc, L.W.f 0 j - L.lrate * m) := by
  obtain ⟨L', Lb', P', m, e1, e2, e3, e4, e5, e6, e7, e8, e9, e10, ρ, z, hρ, hs, hb⟩ := soft_bias hn hnd sa sb hnc h
  refine ⟨L', Lb', P', m, e1, e2, e3, e4, e5.trans hlam, e6, e7, e8, e9, e10, fun hpos hl j hj => ?_, fun hid => ?_⟩
  · rw [hb j hj, hlam, zero_mul, add_zero]
    have : 0 < ∑ i ∈ range m, ρ i j * L.actfunc.actd (z i j) := sum_pos (fun i hi => mul_pos (hρ i (mem_range.1 hi) j hj) (hpos _)) ⟨0, mem_range.2 e9⟩
    have := mul_pos hl this
    linarith
  · rw [soft_sum hid hs hb, hlam]
    ring

/-! ## Training for long -/

/-- `forwardprop(x); backprop(y); update()` for one batch `(x, y)` after the other. -/
def Net.gradSteps (junk : Nat → Nat → ℝ) : List (Mat ℝ × Mat ℝ) → Store → Net → Res (Store × Net)
  | [], s, n => .ok (s, n)
  | b :: bs, s, n => do
    let (s, n) ← n.gradStep junk s b.1 b.2
    Net.gradSteps junk bs s n

/-- **C123** (any training history). Let the first hidden layer `a` have no activation and no regularisation and feed a softmax layer; the layers behind it are of any kind. After a sequence of steps, whatever the samples and
labels are, the sum of the biases of `a` has gone down by the learning rate times the number of samples shown. -/
theorem C123_history {junk : Nat → Nat → ℝ} : ∀ {bs : List (Mat ℝ × Mat ℝ)} {s s' : Store} {n n' : Net} {post : List Nat} {a b : Nat} {L Lb : Layer} {P : Mat ℝ}, n.hidden = a :: b :: post → n.hidden.Nodup →
    s a = ⟨L, .dense⟩ → s b = ⟨Lb, .softmax P⟩ → L.lambda = 0 → 0 < L.W.nc → L.actfunc = Act.identity → n.gradSteps junk bs s = .ok (s', n') →
    ∃ L', s' a = ⟨L', .dense⟩ ∧ L'.W.nc = L.W.nc ∧ ∑ j ∈ range L.W.nc, L'.W.f 0 j = ∑ j ∈ range L.W.nc, L.W.f 0 j - L.lrate * ((bs.map (fun c => c.1.nr)).sum : ℕ)
  | [], s, s', n, n', post, a, b, L, Lb, P, hn, hnd, sa, sb, hl, hc, hid, h => by
    cases h
    exact ⟨L, sa, rfl, by simp⟩
  | c :: bs, s, s', n, n', post, a, b, L, Lb, P, hn, hnd, sa, sb, hl, hc, hid, h => by
    unfold Net.gradSteps at h
    obtain ⟨⟨s1, n1⟩, h1, h2⟩ := bind_eq_ok h
    simp only at h2
    obtain ⟨L1, Lb1, P1, m, e1, e2, e3, e4, e5, e6, e7, e8, -, e9, -, e10⟩ := C123_step (pre := []) hn hnd sa sb hl hc h1
    obtain ⟨L2, f1, f2, f3⟩ := C123_history (e3.trans hn) (by rw [e3]; exact hnd) e1 e2 e5 (by rw [e8]; exact hc) (e4.trans hid) h2
    refine ⟨L2, f1, f2.trans e8, ?_⟩
    rw [e8] at f3
    rw [f3, e10 hid, e9 rfl, e6]
    push_cast [List.map_cons, List.sum_cons]
    ring

/-- **C123** (any training history, any activation with a positive derivative): after at least one step every bias of `a` is smaller than before. -/
theorem C123_monotone {junk : Nat → Nat → ℝ} : ∀ {bs : List (Mat ℝ × Mat ℝ)} {s s' : Store} {n n' : Net} {pre post : List Nat} {a b : Nat} {L Lb : Layer} {P : Mat ℝ}, n.hidden = pre ++ a :: b :: post → n.hidden.Nodup →
    s a = ⟨L, .dense⟩ → s b = ⟨Lb, .softmax P⟩ → L.lambda = 0 → 0 < L.W.nc → (∀ v, 0 < L.actfunc.actd v) → 0 < L.lrate → n.gradSteps junk bs s = .ok (s', n') →
    ∃ L', s' a = ⟨L', .dense⟩ ∧ L'.W.nc = L.W.nc ∧ (∀ j < L.W.nc, L'.W.f 0 j ≤ L.W.f 0 j) ∧ (bs ≠ [] → ∀ j < L.W.nc, L'.W.f 0 j < L.W.f 0 j)
  | [], s, s', n, n', pre, post, a, b, L, Lb, P, hn, hnd, sa, sb, hl, hc, hpos, hr, h => by
    cases h
    exact ⟨L, sa, rfl, fun _ _ => le_rfl, fun h => absurd rfl h⟩
  | c :: bs, s, s', n, n', pre, post, a, b, L, Lb, P, hn, hnd, sa, sb, hl, hc, hpos, hr, h => by
    unfold Net.gradSteps at h
    obtain ⟨⟨s1, n1⟩, h1, h2⟩ := bind_eq_ok h
    simp only at h2
    obtain ⟨L1, Lb1, P1, m, e1, e2, e3, e4, e5, e6, e7, e8, -, e9, e10, -⟩ := C123_step hn hnd sa sb hl hc h1
    obtain ⟨L2, f1, f2, f3, -⟩ := C123_monotone (e3.trans hn) (by rw [e3]; exact hnd) e1 e2 e5 (by rw [e8]; exact hc) (by rw [e4]; exact hpos) (by rw [e6]; exact hr) h2
    rw [e8] at f3
    have := fun j hj => lt_of_le_of_lt (f3 j hj) (e10 hpos hr j hj)
    exact ⟨L2, f1, f2.trans e8, fun j hj => (this j hj).le, fun _ => this⟩

/-- **C123** (regularisation stops the drift). The same network with regularisation `lambda > 0` of its first layer, whose learning rate `lrate` is such that `lrate * lambda ≤ 1`. The sum of the biases of that layer follows
the same law whatever samples and labels are shown, as long as each step shows `m` of them: it tends to `-m / lambda`, and every bias stays above the smaller of `-m / lambda` and a bound `B` on the initial ones. -/
theorem C123_regularised {junk : Nat → Nat → ℝ} {m : Nat} : ∀ {bs : List (Mat ℝ × Mat ℝ)} {s s' : Store} {n n' : Net} {post : List Nat} {a b : Nat} {L Lb : Layer} {P : Mat ℝ}, n.hidden = a :: b :: post → n.hidden.Nodup →
    s a = ⟨L, .dense⟩ → s b = ⟨Lb, .softmax P⟩ → 0 < L.lambda → 0 < L.lrate → L.lrate * L.lambda ≤ 1 → 0 < L.W.nc → L.actfunc = Act.identity → (∀ c ∈ bs, c.1.nr = m) → n.gradSteps junk bs s = .ok (s', n') →
    ∃ L', s' a = ⟨L', .dense⟩ ∧ L'.W.nc = L.W.nc ∧
      ∑ j ∈ range L.W.nc, L'.W.f 0 j = -(m / L.lambda) + (1 - L.lrate * L.lambda) ^ bs.length * (∑ j ∈ range L.W.nc, L.W.f 0 j + m / L.lambda) ∧
      ∀ B : ℝ, B ≤ -(m / L.lambda) → (∀ j < L.W.nc, B ≤ L.W.f 0 j) → ∀ j < L.W.nc, B ≤ L'.W.f 0 j
  | [], s, s', n, n', post, a, b, L, Lb, P, hn, hnd, sa, sb, hl, hη, hle, hc, hid, hm, h => by
    cases h
    exact ⟨L, sa, rfl, by simp, fun B _ hB => hB⟩
  | c :: bs, s, s', n, n', post, a, b, L, Lb, P, hn, hnd, sa, sb, hl, hη, hle, hc, hid, hm, h => by
    unfold Net.gradSteps at h
    obtain ⟨⟨s1, n1⟩, h1, h2⟩ := bind_eq_ok h
    simp only at h2
    obtain ⟨L1, Lb1, P1, m1, e1, e2, e3, e4, e5, e6, e7, e8, -, e9, ρ, z, hρ, hs, hb⟩ := soft_bias (pre := []) hn hnd sa sb hc h1
    obtain rfl : m1 = m := (e9 rfl).trans (hm c (by simp))
    obtain ⟨L2, f1, f2, f3, f4⟩ := C123_regularised (e3.trans hn) (by rw [e3]; exact hnd) e1 e2 (by rw [e5]; exact hl) (by rw [e6]; exact hη) (by rw [e5, e6]; exact hle) (by rw [e8]; exact hc) (e4.trans hid)
      (fun c hc => hm c (by simp [hc])) h2
    rw [e5, e6, e8] at f3
    rw [e5, e8] at f4
    refine ⟨L2, f1, f2.trans e8, ?_, fun B hB hW => f4 B hB fun j hj => ?_⟩
    · rw [f3, soft_sum hid hs hb, List.length_cons, pow_succ]
      field_simp
      ring
    · rw [hb j hj]
      have hub : ∑ i ∈ range m1, ρ i j * L.actfunc.actd (z i j) ≤ m1 := by
        have : ∀ i ∈ range m1, ρ i j * L.actfunc.actd (z i j) ≤ 1 := by
          intro i hi
          have hi := mem_range.1 hi
          rw [hid]
          show _ * 1 ≤ (1 : ℝ)
          rw [mul_one, ← hs i hi]
          exact single_le_sum (f := fun j => ρ i j) (fun k hk => (hρ i hi k (mem_range.1 hk)).le) (mem_range.2 hj)
        simpa using sum_le_sum this
      have hBm : L.lambda * B ≤ -m1 := by
        have := mul_le_mul_of_nonneg_left hB hl.le
        rwa [mul_neg, mul_div_cancel₀ _ hl.ne'] at this
      have h3 := hW j hj
      nlinarith [mul_le_mul_of_nonneg_left hub hη.le, mul_le_mul_of_nonneg_left hBm hη.le, mul_le_mul_of_nonneg_left h3 (sub_nonneg.2 hle)]

/-- A network with two hidden layers, a dense one with `k` nodes and a softmax layer, `p` inputs and `q` outputs, whose cost derivative accepts matching sizes. -/
structure Spec.SoftFront (s : Store) (n : Net) (a b p k q : Nat) : Prop where
  hidden : n.hidden = [a, b]
  ne : a ≠ b
  dense : ∃ L, s a = ⟨L, .dense⟩ ∧ L.W.nr = p + 1 ∧ L.W.nc = k
  soft : ∃ Lb P, s b = ⟨Lb, .softmax P⟩
  orows : n.output.W.nr = k + 1
  ocols : n.output.W.nc = q
  delta : OutputLayer.DeltaOK n.output.costd
  posp : 0 < p
  posk : 0 < k

theorem update_dims {L : Layer} {r c : Nat} (h1 : L.W.nr = r) (h2 : L.W.nc = c) (h3 : L.grad.nr = r) (h4 : L.grad.nc = c) : ∃ W', L.update = .ok { L with W := W' } ∧ W'.nr = r ∧ W'.nc = c ∧ ∀ i < r, ∀ j < c, W'.f i j = L.W.f i j - L.lrate * L.grad.f i j := by
  unfold Layer.update
  rw [Mat.sub_ok (a := L.W) (b := Mat.smul L.lrate L.grad) (by rw [Mat.smul_nr]; omega) (by rw [Mat.smul_nc]; omega)]
  exact ⟨_, rfl, h1, h2, fun i hi j hj => by rw [Mat.of_f' (by omega) (by omega), Mat.smul_f]⟩

/-- The forward pass through such a network. -/
theorem soft_forward {junk : Nat → Nat → ℝ} {s : Store} {n : Net} {a b p k q : Nat} {x : Mat ℝ} {L : Layer} (h : Spec.SoftFront s n a b p k q) (sa : s a = ⟨L, .dense⟩) (hr : 0 < x.nr) (hc : x.nc = p) :
    ∃ s1 n1, n.forwardprop junk s x = .ok ((n.output.toLayer.fwd (Spec.softmaxRows (L.fwd x).a)).a, s1, n1) ∧ n1.output = { n.output with toLayer := n.output.toLayer.fwd (Spec.softmaxRows (L.fwd x).a) } := by
  obtain ⟨h1, h2, ⟨L', sa', w1, w2⟩, ⟨Lb, P, sb⟩, o1, o2, hd, hp, hk⟩ := h
  rw [sa] at sa'
  cases sa'
  refine ⟨(s.put a ⟨L.fwd x, .dense⟩).put b ⟨Lb, .softmax (Spec.softmaxRows (L.fwd x).a)⟩, { n with input := (InputLayer.forwardprop n.input x).2, output := { n.output with toLayer := n.output.toLayer.fwd (Spec.softmaxRows (L.fwd x).a) }, result := (n.output.toLayer.fwd (Spec.softmaxRows (L.fwd x).a)).a }, ?_, rfl⟩
  have S1 : (Spec.softmaxRows (L.fwd x).a).nr = x.nr := rfl
  have S2 : (Spec.softmaxRows (L.fwd x).a).nc = k := w2
  unfold Net.forwardprop
  simp only [h1, Net.hiddenForward, sa]
  rw [show (HLayer.mk L .dense).forwardprop junk (InputLayer.forwardprop n.input x).1 = .ok ((L.fwd x).a, ⟨L.fwd x, .dense⟩) by
    unfold HLayer.forwardprop
    simp only
    rw [show (InputLayer.forwardprop n.input x).1 = x from rfl, Layer.forwardprop_ok hr (by omega) (by omega)]
    rfl]
  simp only [ok_bind]
  rw [put_other (Ne.symm h2), sb]
  rw [show (HLayer.mk Lb (.softmax P)).forwardprop junk (L.fwd x).a = .ok (Spec.softmaxRows (L.fwd x).a, ⟨Lb, .softmax (Spec.softmaxRows (L.fwd x).a)⟩) by
    unfold HLayer.forwardprop
    simp only
    rw [softmaxL_ok]
    rfl]
  simp only [ok_bind]
  rw [OutputLayer.forwardprop_ok (by omega) (by omega) (by omega)]
  rfl

theorem soft_step {junk : Nat → Nat → ℝ} {s : Store} {n : Net} {a b p k q : Nat} {x y : Mat ℝ} {L : Layer} (h : Spec.SoftFront s n a b p k q) (sa : s a = ⟨L, .dense⟩) (hr : 0 < x.nr) (hc : x.nc = p) (hyr : y.nr = x.nr) (hyc : y.nc = q) :
    ∃ s' n' D W1 W2, n.gradStep junk s x y = .ok (s', n') ∧ Spec.SoftFront s' n' a b p k q ∧
      n.output.costd y (n.output.toLayer.fwd (Spec.softmaxRows (L.fwd x).a)).a (n.output.toLayer.fwd (Spec.softmaxRows (L.fwd x).a)).z = .ok D ∧
      s' a = ⟨{ (L.fwd x).bwd (Spec.softmaxRows (Layer.backOf D n.output.W)) with W := W2 }, .dense⟩ ∧ D.nr = x.nr ∧ D.nc = q ∧ W1.nr = k + 1 ∧ W1.nc = q ∧ W2.nr = p + 1 ∧ W2.nc = k ∧
      n'.output.W = W1 ∧ n'.output.actfunc = n.output.actfunc ∧ n'.output.costd = n.output.costd ∧ n'.output.lambda = n.output.lambda ∧
      (∀ i < k + 1, ∀ j < q, W1.f i j = n.output.W.f i j - n.output.lrate * ((n.output.toLayer.fwd (Spec.softmaxRows (L.fwd x).a)).regGrad D).f i j) ∧
      (∀ i < p + 1, ∀ j < k, W2.f i j = L.W.f i j - L.lrate * ((L.fwd x).bwd (Spec.softmaxRows (Layer.backOf D n.output.W))).grad.f i j) := by
  obtain ⟨h1, h2, ⟨L', sa', w1, w2⟩, ⟨Lb, P, sb⟩, o1, o2, hd, hp, hk⟩ := h
  rw [sa] at sa'
  cases sa'
  set S := Spec.softmaxRows (L.fwd x).a with hS
  have S1 : S.nr = x.nr := rfl
  have S2 : S.nc = k := w2
  set t := (s.put a ⟨L.fwd x, .dense⟩).put b ⟨Lb, .softmax S⟩ with ht
  set o := ({ n.output with toLayer := n.output.toLayer.fwd S } : OutputLayer) with ho
  have hf : n.forwardprop junk s x = .ok ((n.output.toLayer.fwd S).a, t, { n with input := (InputLayer.forwardprop n.input x).2, output := o, result := (n.output.toLayer.fwd S).a }) := by
    unfold Net.forwardprop
    simp only [h1, Net.hiddenForward, sa]
    rw [show (HLayer.mk L .dense).forwardprop junk (InputLayer.forwardprop n.input x).1 = .ok ((L.fwd x).a, ⟨L.fwd x, .dense⟩) by
      unfold HLayer.forwardprop
      simp only
      rw [show (InputLayer.forwardprop n.input x).1 = x from rfl, Layer.forwardprop_ok hr (by omega) (by omega)]
      rfl]
    simp only [ok_bind]
    rw [put_other (Ne.symm h2), sb]
    rw [show (HLayer.mk Lb (.softmax P)).forwardprop junk (L.fwd x).a = .ok (S, ⟨Lb, .softmax S⟩) by
      unfold HLayer.forwardprop
      simp only
      rw [softmaxL_ok]
      rfl]
    simp only [ok_bind]
    rw [OutputLayer.forwardprop_ok (by omega) (by omega) (by omega)]
    rfl
  obtain ⟨D, hD, d1, d2⟩ := hd y o.a o.z (by show x.nr = _; omega) (by show n.output.W.nc = _; omega) (by show x.nr = _; omega) (by show n.output.W.nc = _; omega)
  have hob : o.backprop y = .ok (Layer.backOf D o.W, o.bwd y D) :=
    OutputLayer.backprop_ok (m := x.nr) (Layer.fwd_cached (by omega)) (by show 1 ≤ n.output.W.nr; omega) hD (by omega) (by show _ = n.output.W.nc; omega)
  set R := Spec.softmaxRows (Layer.backOf D o.W) with hR
  have R1 : R.nr = x.nr := by show D.nr = _; omega
  have R2 : R.nc = k := by show n.output.W.nr - 1 = k; omega
  set M := (L.fwd x).bwd R with hM
  have hbk : ∀ m : Net, m.hidden = [a, b] → m.output = o → ∃ t', m.backprop junk t y = .ok (t', { m with output := o.bwd y D }) ∧ t' a = ⟨M, .dense⟩ ∧ t' b = ⟨Lb, .softmax S⟩ := by
    intro m hm1 hm2
    refine ⟨(t.put b ⟨Lb, .softmax S⟩).put a ⟨M, .dense⟩, ?_, put_same, by rw [put_other (Ne.symm h2), put_same]⟩
    unfold Net.backprop
    rw [hm2, hob, ok_bind, hm1]
    simp only [List.reverse_cons, List.reverse_nil, List.nil_append, List.cons_append, Net.hiddenBackward]
    rw [show t b = ⟨Lb, .softmax S⟩ from put_same]
    rw [show (HLayer.mk Lb (.softmax S)).backprop junk (Layer.backOf D o.W) = .ok (R, ⟨Lb, .softmax S⟩) by
      unfold HLayer.backprop
      simp only
      rw [show SoftmaxL.backprop (Layer.backOf D o.W) = .ok R from softmaxL_ok _]
      rfl]
    simp only [ok_bind]
    rw [put_other h2, show t a = ⟨L.fwd x, .dense⟩ by rw [ht, put_other h2, put_same]]
    rw [show (HLayer.mk (L.fwd x) .dense).backprop junk R = .ok (Layer.backOf ((L.fwd x).dz R) L.W, ⟨M, .dense⟩) by
      unfold HLayer.backprop
      simp only
      rw [Layer.backprop_ok (Layer.fwd_cached (by omega)) hr (by show 2 ≤ L.W.nr; omega) R1 (by show _ = L.W.nc; omega)]
      rfl]
    rfl
  obtain ⟨t', e1, e2, e3⟩ := hbk { n with input := (InputLayer.forwardprop n.input x).2, output := o, result := (n.output.toLayer.fwd S).a } h1 rfl
  obtain ⟨W1, u1, u2, u3, u4⟩ := update_dims (L := (o.bwd y D).toLayer) (r := k + 1) (c := q) o1 o2 o1 o2
  obtain ⟨W2, v1, v2, v3, v4⟩ := update_dims (L := M) (r := p + 1) (c := k) w1 w2 w1 w2
  refine ⟨(t'.put a ⟨{ M with W := W2 }, .dense⟩).put b ⟨Lb, .softmax S⟩,
    { n with input := (InputLayer.forwardprop n.input x).2, output := { o.bwd y D with toLayer := { (o.bwd y D).toLayer with W := W1 } }, result := (n.output.toLayer.fwd S).a }, D, W1, W2, ?_, ⟨?_, h2, ⟨{ M with W := W2 }, by rw [put_other h2, put_same], v2, v3⟩, ⟨Lb, S, put_same⟩, ?_, ?_, ?_, hp, hk⟩, hD, (put_other h2).trans put_same, by omega, by omega, u2, u3, v2, v3, rfl, rfl, rfl, rfl, u4, v4⟩
  · unfold Net.gradStep
    rw [hf, ok_bind]
    simp only
    rw [e1, ok_bind]
    simp only
    unfold Net.update
    simp only
    rw [u1, ok_bind, h1]
    simp only [Net.hiddenUpdate, e2]
    rw [show (HLayer.mk M .dense).update = .ok ⟨{ M with W := W2 }, .dense⟩ by unfold HLayer.update; simp only; rw [v1]; rfl]
    simp only [ok_bind]
    rw [put_other (Ne.symm h2), e3]
    rfl
  · exact h1
  · exact u2
  · exact u3
  · exact hd

/-- **C123** (training does not throw, and the network keeps its form). -/
theorem C123_runs {junk : Nat → Nat → ℝ} {s : Store} {n : Net} {a b p k q : Nat} {x y : Mat ℝ} (h : Spec.SoftFront s n a b p k q) (hr : 0 < x.nr) (hc : x.nc = p) (hyr : y.nr = x.nr) (hyc : y.nc = q) :
    ∃ s' n', n.gradStep junk s x y = .ok (s', n') ∧ Spec.SoftFront s' n' a b p k q := by
  obtain ⟨L, sa, -⟩ := h.dense
  obtain ⟨s', n', -, -, -, e, f, -⟩ := soft_step (junk := junk) h sa hr hc hyr hyc
  exact ⟨s', n', e, f⟩

/-- The answers of a softmax layer do not change when the same number is taken from all values of a row. -/
theorem softmaxRows_shift {u v : Mat ℝ} (hr : v.nr = u.nr) (hc : v.nc = u.nc) (c : Nat → ℝ) (h : ∀ i < u.nr, ∀ j < u.nc, v.f i j = u.f i j - c i) : Spec.softmaxRows v = Spec.softmaxRows u := by
  refine Mat.ext' hr hc fun i j hi hj => ?_
  have hi : i < v.nr := hi
  have hj : j < v.nc := hj
  unfold Spec.softmaxRows
  rw [Mat.of_f' hi hj, Mat.of_f' (by omega) (by omega), hc]
  have e : ∀ j < u.nc, Real.exp (v.f i j) = Real.exp (u.f i j) * Real.exp (-c i) := fun j hj => by rw [h i (by omega) j hj, sub_eq_add_neg, Real.exp_add]
  rw [e j (by omega), sum_congr rfl (fun j hj => e j (mem_range.1 hj)), ← sum_mul, mul_div_mul_right _ _ (Real.exp_pos _).ne']

theorem soft_invisible {junk : Nat → Nat → ℝ} {s : Store} {n : Net} {a b p k q : Nat} {x y : Mat ℝ} {L : Layer} (h : Spec.SoftFront s n a b p k q) (sa : s a = ⟨L, .dense⟩) (hl : L.lambda = 0) (hol : n.output.lambda = 0)
    (hid : L.actfunc = Act.identity) (hr : 0 < x.nr) (hc : x.nc = p) (hyr : y.nr = x.nr) (hyc : y.nc = q)
    (hfit : ∀ r s1 n1 D, n.forwardprop junk s x = .ok (r, s1, n1) → n1.output.costd y n1.output.a n1.output.z = .ok D → ∀ i < D.nr, ∀ j < D.nc, D.f i j = 0) :
    ∃ s' n', n.gradStep junk s x y = .ok (s', n') ∧ Spec.SoftFront s' n' a b p k q ∧
      (∃ L', s' a = ⟨L', .dense⟩ ∧ L'.lambda = 0 ∧ L'.actfunc = Act.identity) ∧ n'.output.lambda = 0 ∧
      ∀ x' : Mat ℝ, 0 < x'.nr → x'.nc = p → ∃ r s1 n1 s2 n2, n.forwardprop junk s x' = .ok (r, s1, n1) ∧ n'.forwardprop junk s' x' = .ok (r, s2, n2) ∧
        n2.output.a = n1.output.a ∧ n2.output.z = n1.output.z ∧ n2.output.costd = n1.output.costd := by
  obtain ⟨s', n', D, W1, W2, e, hS', hD, sa', d1, d2, a1, a2, b1, b2, oW, oact, oc, ol, g1, g2⟩ := soft_step (junk := junk) h sa hr hc hyr hyc
  obtain ⟨t1, m1, f1, f2⟩ := soft_forward (junk := junk) h sa hr hc
  have hz : ∀ i < D.nr, ∀ j < D.nc, D.f i j = 0 := hfit _ _ _ D f1 (by rw [f2]; exact hD)
  obtain ⟨L', sb', w1, w2⟩ := h.dense
  rw [sa] at sb'
  cases sb'
  have o1 := h.orows
  have o2 := h.ocols
  refine ⟨s', n', e, hS', ⟨_, sa', hl, hid⟩, ol.trans hol, fun x' hr' hc' => ?_⟩
  obtain ⟨t2, m2, p1, q1⟩ := soft_forward (junk := junk) h sa hr' hc'
  obtain ⟨t3, m3, p2, q2⟩ := soft_forward (junk := junk) hS' sa' hr' hc'
  -- the output layer keeps its weights
  have eW1 : n'.output.W = n.output.W := by
    rw [oW]
    refine Mat.ext' (by omega) (by omega) fun i j hi hj => ?_
    rw [g1 i (by omega) j (by omega)]
    unfold Layer.regGrad Layer.gradOf
    rw [Mat.of_f' (by show i < n.output.W.nr; omega) (by show j < n.output.W.nc; omega), Mat.of_f' (by show i < L.W.nc + 1; omega) (by omega)]
    rw [show (n.output.toLayer.fwd (Spec.softmaxRows (L.fwd x).a)).lambda = 0 from hol, sum_eq_zero (fun r hr2 => by rw [hz r (by have : r < x.nr := mem_range.1 hr2; omega) j (by omega), mul_zero])]
    ring
  -- every column of the first layer moves by the same vector
  set R := Spec.softmaxRows (Layer.backOf D n.output.W) with hR
  have hRf : ∀ i < x.nr, ∀ j < k, R.f i j = 1 / k := by
    intro i hi j hj
    have hb1 : (Layer.backOf D n.output.W).nr = x.nr := d1
    have hb2 : (Layer.backOf D n.output.W).nc = k := by show n.output.W.nr - 1 = k; omega
    have hb : ∀ j < k, (Layer.backOf D n.output.W).f i j = 0 := by
      intro j hj
      unfold Layer.backOf
      rw [Mat.of_f' (by omega) (by omega)]
      exact sum_eq_zero fun r hr2 => by rw [hz i (by omega) r (mem_range.1 hr2), zero_mul]
    rw [hR]
    unfold Spec.softmaxRows
    rw [Mat.of_f' (by omega) (by omega), hb2, hb j hj, sum_congr rfl (fun j hj => by rw [hb j (mem_range.1 hj)])]
    simp
  set c : Nat → ℝ := fun i => L.lrate * ∑ r ∈ range x.nr, (ones1 x).f r i * (1 / k) with hcdef
  have hW2 : ∀ i < p + 1, ∀ j < k, W2.f i j = L.W.f i j - c i := by
    intro i hi j hj
    rw [g2 i hi j hj, hcdef]
    simp only
    congr 2
    unfold Layer.bwd Layer.regGrad
    simp only
    rw [Mat.of_f' (by show i < L.W.nr; omega) (by show j < L.W.nc; omega)]
    unfold Layer.gradOf Layer.dz
    have hR1 : R.nr = x.nr := d1
    have hR2 : R.nc = k := by show n.output.W.nr - 1 = k; omega
    rw [Mat.of_f' (by show i < x.nc + 1; omega) (by show j < R.nc; omega)]
    rw [show (L.fwd x).lambda = 0 from hl, zero_mul, add_zero]
    refine sum_congr rfl fun r hr2 => ?_
    have hr2 : r < x.nr := mem_range.1 hr2
    rw [Mat.of_f' (by omega) (by omega), hRf r hr2 j hj]
    rw [show (L.fwd x).actfunc = Act.identity from hid]
    show _ * (_ * (1 : ℝ)) = _
    rw [mul_one]
    rfl
  set M : Layer := { (L.fwd x).bwd R with W := W2 } with hM
  have hsoft : Spec.softmaxRows (M.fwd x').a = Spec.softmaxRows (L.fwd x').a := by
    have m1 : M.W = W2 := rfl
    refine softmaxRows_shift rfl (by show W2.nc = L.W.nc; omega) (fun i => c 0 + ∑ r ∈ range x'.nc, x'.f i r * c (r + 1)) fun i hi j hj => ?_
    have hi : i < x'.nr := hi
    have hj : j < L.W.nc := hj
    unfold Layer.fwd
    simp only
    rw [Mat.map_f' (by show i < x'.nr; exact hi) (by show j < W2.nc; omega), Mat.map_f' (by show i < x'.nr; exact hi) (by show j < L.W.nc; omega)]
    rw [show M.actfunc = Act.identity from hid, hid]
    show (Spec.pre W2 x').f i j = (Spec.pre L.W x').f i j - _
    unfold Spec.pre
    rw [Mat.of_f' hi (by omega), Mat.of_f' hi hj, hW2 0 (by omega) j (by omega)]
    rw [sum_congr rfl (fun r hr2 => by rw [hW2 (r + 1) (by have := mem_range.1 hr2; omega) j (by omega), mul_sub]), sum_sub_distrib]
    ring
  have ez : (n'.output.toLayer.fwd (Spec.softmaxRows (L.fwd x').a)).z = (n.output.toLayer.fwd (Spec.softmaxRows (L.fwd x').a)).z := by
    unfold Layer.fwd
    simp only
    rw [eW1]
  have ea : (n'.output.toLayer.fwd (Spec.softmaxRows (L.fwd x').a)).a = (n.output.toLayer.fwd (Spec.softmaxRows (L.fwd x').a)).a := by
    unfold Layer.fwd
    simp only
    rw [eW1, oact]
  rw [hsoft] at p2 q2
  exact ⟨_, t2, m2, t3, m3, p1, by rw [p2, ea], by rw [q2, q1]; exact ea, by rw [q2, q1]; exact ez, by rw [q2, q1]; exact oc⟩

/-- **C123** (the drift cannot be seen). Let such a network have no activation in its first layer and no regularisation, and let the derivative of the cost on the samples be zero, as it is if the samples are answered
perfectly. Then training on these samples, which moves the weights of the first
layer at every step, changes no answer of the network, on these samples or on any others, however many steps are made. -/
theorem C123_invisible {junk : Nat → Nat → ℝ} {p k q a b : Nat} {x y : Mat ℝ} (hr : 0 < x.nr) (hc : x.nc = p) (hyr : y.nr = x.nr) (hyc : y.nc = q) : ∀ (t : Nat) {s : Store} {n : Net} {L : Layer}, Spec.SoftFront s n a b p k q →
    s a = ⟨L, .dense⟩ → L.lambda = 0 → n.output.lambda = 0 → L.actfunc = Act.identity →
    (∀ r s1 n1 D, n.forwardprop junk s x = .ok (r, s1, n1) → n1.output.costd y n1.output.a n1.output.z = .ok D → ∀ i < D.nr, ∀ j < D.nc, D.f i j = 0) →
    ∃ s' n', n.gradSteps junk (List.replicate t (x, y)) s = .ok (s', n') ∧
      ∀ x' : Mat ℝ, 0 < x'.nr → x'.nc = p → ∃ r s1 n1 s2 n2, n.forwardprop junk s x' = .ok (r, s1, n1) ∧ n'.forwardprop junk s' x' = .ok (r, s2, n2)
  | 0, s, n, L, h, sa, hl, hol, hid, hfit => by
    refine ⟨s, n, rfl, fun x' hr' hc' => ?_⟩
    obtain ⟨s1, n1, f1, -⟩ := soft_forward (junk := junk) h sa hr' hc'
    exact ⟨_, s1, n1, s1, n1, f1, f1⟩
  | t + 1, s, n, L, h, sa, hl, hol, hid, hfit => by
    obtain ⟨s1, n1, e, h1, ⟨L1, sa1, hl1, hid1⟩, ho1, heq⟩ := soft_invisible (junk := junk) h sa hl hol hid hr hc hyr hyc hfit
    obtain ⟨s2, n2, e2, heq2⟩ := C123_invisible hr hc hyr hyc t h1 sa1 hl1 ho1 hid1 (by
      intro r u1 m1 D f1 f2
      obtain ⟨r', v1, k1, v2, k2, g1, g2, g3, g4, g5⟩ := heq x hr hc
      rw [f1] at g2
      cases g2
      rw [g3, g4, g5] at f2
      exact hfit _ _ _ D g1 f2)
    refine ⟨s2, n2, ?_, fun x' hr' hc' => ?_⟩
    · rw [List.replicate_succ]
      unfold Net.gradSteps
      rw [e, ok_bind]
      exact e2
    · obtain ⟨r, v1, k1, v2, k2, g1, g2, -⟩ := heq x' hr' hc'
      obtain ⟨r', v3, k3, v4, k4, g3, g4⟩ := heq2 x' hr' hc'
      rw [g2] at g3
      cases g3
      exact ⟨r, v1, k1, v4, k4, g1, g4⟩

/-- **C123** (it never settles). A network of that form whose first layer has no activation and no regularisation is trained on the same samples again and again, however well it fits them. No call throws, and the biases
of the first layer fall below every bound: there is a number of rounds from which on at least one of them is below `B`. -/
theorem C123_diverges {junk : Nat → Nat → ℝ} {s : Store} {n : Net} {a b p k q : Nat} {x y : Mat ℝ} {L : Layer} (h : Spec.SoftFront s n a b p k q) (hr : 0 < x.nr) (hc : x.nc = p) (hyr : y.nr = x.nr) (hyc : y.nc = q)
    (sa : s a = ⟨L, .dense⟩) (hl : L.lambda = 0) (hid : L.actfunc = Act.identity) (hη : 0 < L.lrate) :
    (∀ t, ∃ s' n' L', n.gradSteps junk (List.replicate t (x, y)) s = .ok (s', n') ∧ s' a = ⟨L', .dense⟩ ∧ L'.W.nc = k ∧ ∑ j ∈ range k, L'.W.f 0 j = ∑ j ∈ range k, L.W.f 0 j - L.lrate * (t * x.nr)) ∧
    ∀ B : ℝ, ∃ T : ℕ, ∀ t ≥ T, ∃ s' n' L', n.gradSteps junk (List.replicate t (x, y)) s = .ok (s', n') ∧ s' a = ⟨L', .dense⟩ ∧ L'.W.nc = k ∧ ∃ j < k, L'.W.f 0 j < B := by
  have hrun : ∀ (t : ℕ) (s : Store) (n : Net), Spec.SoftFront s n a b p k q → ∃ s' n', n.gradSteps junk (List.replicate t (x, y)) s = .ok (s', n') := by
    intro t
    induction t with
    | zero => intro s n h; exact ⟨s, n, rfl⟩
    | succ t ih =>
      intro s n h
      obtain ⟨s1, n1, e1, e2⟩ := C123_runs (junk := junk) h hr hc hyr hyc
      obtain ⟨s2, n2, e3⟩ := ih s1 n1 e2
      refine ⟨s2, n2, ?_⟩
      rw [List.replicate_succ]
      unfold Net.gradSteps
      rw [e1, ok_bind]
      exact e3
  have hk : L.W.nc = k := by
    obtain ⟨L', f1, f2, f3⟩ := h.dense
    rw [sa] at f1
    cases f1
    exact f3
  obtain ⟨Lb, P, sb⟩ := h.soft
  have key : ∀ t : ℕ, ∃ s' n' L', n.gradSteps junk (List.replicate t (x, y)) s = .ok (s', n') ∧ s' a = ⟨L', .dense⟩ ∧ L'.W.nc = k ∧ ∑ j ∈ range k, L'.W.f 0 j = ∑ j ∈ range k, L.W.f 0 j - L.lrate * (t * x.nr) := by
    intro t
    obtain ⟨s', n', e⟩ := hrun t s n h
    obtain ⟨L', f1, f2, f3⟩ := C123_history h.hidden (by rw [h.hidden]; simp [h.ne]) sa sb hl (by have := h.posk; omega) hid e
    rw [hk] at f2 f3
    exact ⟨s', n', L', e, f1, f2, by rw [f3]; simp⟩
  refine ⟨key, fun B => ?_⟩
  obtain ⟨T, hT⟩ := exists_nat_gt ((∑ j ∈ range k, L.W.f 0 j - k * B) / L.lrate)
  refine ⟨T, fun t ht => ?_⟩
  obtain ⟨s', n', L', e, f1, f2, f3⟩ := key t
  refine ⟨s', n', L', e, f1, f2, ?_⟩
  by_contra hne
  push Not at hne
  have h1 : (k : ℝ) * B ≤ ∑ j ∈ range k, L'.W.f 0 j := by
    have := sum_le_sum (fun j hj => hne j (mem_range.1 hj))
    simpa using this
  have h2 : (T : ℝ) ≤ t * x.nr := by
    have h3 : (T : ℝ) ≤ t := by exact_mod_cast ht
    have h4 : (1 : ℝ) ≤ x.nr := by exact_mod_cast hr
    have h5 : (0 : ℝ) ≤ t := by positivity
    nlinarith
  rw [div_lt_iff₀ hη] at hT
  nlinarith

/-! ## A network that fits perfectly -/

/-- The layers of the example: two nodes with no activation and zero weights, learning rate 1, and a softmax layer. -/
def sfStore : Store := fun i => if i = 0 then ⟨exLayer Act.identity (Mat.of 2 2 (fun _ _ => 0)), .dense⟩ else ⟨exLayer Act.identity .empty, .softmax .empty⟩

/-- Their network: one input, one output that adds the two values of the softmax layer, the quadratic cost. -/
def sfNet : Net :=
  { result := .empty, cost := Quadratic.cost, costd := Quadratic.costd, input := exLayer Act.identity .empty, hidden := [0, 1],
    output := { exLayer Act.identity (Mat.of 3 1 (fun i _ => if i = 0 then 0 else 1)) with cost := Quadratic.cost, costd := Quadratic.costd, y := .empty } }

theorem sf_front : Spec.SoftFront sfStore sfNet 0 1 1 2 1 :=
  ⟨rfl, by omega, ⟨_, rfl, rfl, rfl⟩, ⟨_, _, rfl⟩, rfl, rfl, C54_costs.1, by omega, by omega⟩

/-- What a user may expect, that training leaves a network alone which fits its samples perfectly, has no regularisation and no activation, is false below a softmax layer: this one answers 7 with 1, is trained with 1 as the
label, and the biases of its first layer go down at every step, below every bound. -/
theorem C123_perfect_refuted (junk : Nat → Nat → ℝ) (v : ℝ) :
    (∃ r s n, sfNet.forwardprop junk sfStore (Mat.of 1 1 fun _ _ => v) = .ok (r, s, n) ∧ r = Mat.of 1 1 fun _ _ => 1) ∧
    (∃ s n L, sfNet.gradStep junk sfStore (Mat.of 1 1 fun _ _ => v) (Mat.of 1 1 fun _ _ => 1) = .ok (s, n) ∧ s 0 = ⟨L, .dense⟩ ∧ L.W.f 0 0 < 0 ∧ L.W.f 0 1 < 0) ∧
    ∀ B : ℝ, ∃ T : ℕ, ∀ t ≥ T, ∃ s n L, sfNet.gradSteps junk (List.replicate t (Mat.of 1 1 fun _ _ => v, Mat.of 1 1 fun _ _ => 1)) sfStore = .ok (s, n) ∧ s 0 = ⟨L, .dense⟩ ∧ ∃ j < 2, L.W.f 0 j < B := by
  have hη : 0 < (exLayer Act.identity (Mat.of 2 2 (fun _ _ => 0))).lrate := by unfold exLayer; norm_num
  refine ⟨?_, ?_, fun B => ?_⟩
  · set L := exLayer Act.identity (Mat.of 2 2 (fun _ _ => 0)) with hL
    set x : Mat ℝ := Mat.of 1 1 fun _ _ => v with hx
    have e1 : sfStore 0 = ⟨L, .dense⟩ := rfl
    have e2 : sfStore 1 = ⟨exLayer Act.identity .empty, .softmax .empty⟩ := rfl
    have hf : ∃ s n, sfNet.forwardprop junk sfStore x = .ok ((sfNet.output.toLayer.fwd (Spec.softmaxRows (L.fwd x).a)).a, s, n) := by
      refine ⟨(sfStore.put 0 ⟨L.fwd x, .dense⟩).put 1 ⟨exLayer Act.identity .empty, .softmax (Spec.softmaxRows (L.fwd x).a)⟩, { sfNet with input := (InputLayer.forwardprop sfNet.input x).2, output := { sfNet.output with toLayer := sfNet.output.toLayer.fwd (Spec.softmaxRows (L.fwd x).a) }, result := (sfNet.output.toLayer.fwd (Spec.softmaxRows (L.fwd x).a)).a }, ?_⟩
      unfold Net.forwardprop
      rw [show sfNet.hidden = [0, 1] from rfl]
      simp only [Net.hiddenForward, e1]
      rw [show (HLayer.mk L .dense).forwardprop junk (InputLayer.forwardprop sfNet.input x).1 = .ok ((L.fwd x).a, ⟨L.fwd x, .dense⟩) by
        unfold HLayer.forwardprop
        simp only
        rw [show (InputLayer.forwardprop sfNet.input x).1 = x from rfl, Layer.forwardprop_ok Nat.one_pos Nat.one_pos rfl]
        rfl]
      simp only [ok_bind]
      rw [put_other (by omega), e2]
      rw [show (HLayer.mk (exLayer Act.identity .empty) (.softmax .empty)).forwardprop junk (L.fwd x).a = .ok (Spec.softmaxRows (L.fwd x).a, ⟨exLayer Act.identity .empty, .softmax (Spec.softmaxRows (L.fwd x).a)⟩) by
        unfold HLayer.forwardprop
        simp only
        rw [softmaxL_ok]
        rfl]
      simp only [ok_bind]
      rw [OutputLayer.forwardprop_ok Nat.one_pos Nat.two_pos rfl]
      rfl
    obtain ⟨s, n, e⟩ := hf
    refine ⟨_, s, n, e, Mat.ext' rfl rfl fun i j hi hj => ?_⟩
    have hi : i < 1 := hi
    have hj : j < 1 := hj
    obtain rfl : i = 0 := by omega
    obtain rfl : j = 0 := by omega
    rw [Mat.of_f' hi hj]
    show (Spec.pre sfNet.output.W (Spec.softmaxRows (L.fwd x).a)).f 0 0 = 1
    unfold Spec.pre
    rw [Mat.of_f' (by exact hi) (by exact hj)]
    have h2 : (L.fwd x).a.nc = 2 := rfl
    show _ + ∑ k ∈ range (L.fwd x).a.nc, _ = _
    rw [← softmaxRows_sum (x := (L.fwd x).a) (i := 0) Nat.one_pos (by omega)]
    have w0 : sfNet.output.W.f 0 0 = 0 := Mat.of_f' (by omega) (by omega)
    rw [w0, zero_add]
    refine sum_congr rfl fun k hk => ?_
    have hk := mem_range.1 hk
    have w1 : sfNet.output.W.f (k + 1) 0 = 1 := (Mat.of_f' (by omega) (by omega)).trans (if_neg (by omega))
    rw [w1, mul_one]
  · obtain ⟨s', n', e, -⟩ := C123_runs (junk := junk) (x := Mat.of 1 1 fun _ _ => v) (y := Mat.of 1 1 fun _ _ => 1) sf_front Nat.one_pos rfl rfl rfl
    obtain ⟨L', -, -, -, f1, -, -, -, -, -, -, -, -, -, f2, -⟩ := C123_step (pre := []) (post := []) (a := 0) (b := 1) rfl (by simp [sfNet]) rfl rfl rfl Nat.two_pos e
    have f2 := f2 (fun _ => one_pos) hη
    have z : ∀ j < 2, (exLayer Act.identity (Mat.of 2 2 (fun _ _ => 0))).W.f 0 j = 0 := fun j hj => Mat.of_f' (by omega) hj
    exact ⟨s', n', L', e, f1, lt_of_lt_of_eq (f2 0 Nat.two_pos) (z 0 (by omega)), lt_of_lt_of_eq (f2 1 Nat.one_lt_two) (z 1 (by omega))⟩
  · obtain ⟨T, hT⟩ := (C123_diverges (junk := junk) (x := Mat.of 1 1 fun _ _ => v) (y := Mat.of 1 1 fun _ _ => 1) sf_front Nat.one_pos rfl rfl rfl rfl rfl rfl hη).2 B
    refine ⟨T, fun t ht => ?_⟩
    obtain ⟨s, n, L, e, f1, -, f2⟩ := hT t ht
    exact ⟨s, n, L, e, f1, f2⟩

/-- The hypotheses of `C123_invisible` hold of it. -/
example (junk : Nat → Nat → ℝ) (v : ℝ) : ∀ r s1 n1 D, sfNet.forwardprop junk sfStore (Mat.of 1 1 fun _ _ => v) = .ok (r, s1, n1) → n1.output.costd (Mat.of 1 1 fun _ _ => 1) n1.output.a n1.output.z = .ok D →
    ∀ i < D.nr, ∀ j < D.nc, D.f i j = 0 := by
  intro r s1 n1 D h1 h2 i hi j hj
  obtain ⟨t1, m1, f1, f2⟩ := soft_forward (junk := junk) (x := Mat.of 1 1 fun _ _ => v) sf_front rfl Nat.one_pos rfl
  obtain ⟨⟨r', s', n', e1, e2⟩, -⟩ := C123_perfect_refuted junk v
  rw [f1] at e1 h1
  cases e1
  cases h1
  rw [f2] at h2
  have h2 : Quadratic.costd (Mat.of 1 1 fun _ _ => 1) (sfNet.output.toLayer.fwd (Spec.softmaxRows ((exLayer Act.identity (Mat.of 2 2 fun _ _ => 0)).fwd (Mat.of 1 1 fun _ _ => v)).a)).a
    (sfNet.output.toLayer.fwd (Spec.softmaxRows ((exLayer Act.identity (Mat.of 2 2 fun _ _ => 0)).fwd (Mat.of 1 1 fun _ _ => v)).a)).z = .ok D := h2
  rw [e2] at h2
  unfold Quadratic.costd at h2
  rw [diff_costd rfl rfl] at h2
  cases h2
  have hi : i < 1 := hi
  have hj : j < 1 := hj
  rw [Mat.of_f' (by exact hi) (by exact hj), sub_self, zero_div]

end
end Nnet.NN
