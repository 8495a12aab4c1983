import Verif.NN.PropsMixed
import Verif.NN.PropsNormNet
import Verif.NN.PropsExn
/-!
# C126: what a rejected batch leaves behind in a normalising layer
-/
namespace Nnet.NN
open Finset X
noncomputable section

/-- Layer `id` is not touched. -/
def Spares (id : Nat) (a b : Store × Net) : Prop := b.1 id = a.1 id

theorem spares_refl (id : Nat) (a : Store × Net) : Spares id a a := rfl

theorem spares_trans (id : Nat) (a b c : Store × Net) (h : Spares id a b) (h' : Spares id b c) : Spares id a c := h'.trans h

theorem hiddenForward_spares (junk : Nat → Nat → ℝ) {id : Nat} : ∀ (ps : List Nat) (c : Mat ℝ), id ∉ ps → Keeps (Spares id) (Net.hiddenForwardX junk ps c)
  | [], c, _ => Keeps.ret (spares_refl id) c
  | p :: ps, c, h => by
    rw [List.mem_cons, not_or] at h
    unfold Net.hiddenForwardX
    exact Keeps.bind (spares_trans id) (Keeps.on (Q := fun _ _ => True) (fun _ _ => trivial) fun st v _ => put_other h.1) fun n =>
      Keeps.bind (spares_trans id) (Keeps.eval (spares_refl id)) fun n => hiddenForward_spares junk ps n h.2

/-- **C126** (what is left). Let the first hidden layer be a normalising one that holds `v`. Whatever happens to the non-empty batch `x` behind it, in particular if `forwardprop(x)` throws because the width of `x` does not fit,
the normalising layer holds the range of `x` afterwards if it held 0. Settings and weights of the dense layers and of the output layer are those before the call. -/
theorem C126_left {junk : Nat → Nat → ℝ} {s s' : Store} {n n' : Net} {id : Nat} {ids : List Nat} {x : Mat ℝ} {v M m : ℝ} {r : Res (Mat ℝ)} {b' : Option Fault} (hn : n.hidden = id :: ids) (hnd : id ∉ ids)
    (hk : (s id).kind = .norm v) (hr : 0 < x.nr) (hc : 0 < x.nc) (he : Spec.Extremes x M m) (h : Net.forwardpropX junk x none (s, n) = (r, b', s', n')) :
    (s' id).kind = .norm (if v = 0 then M - m else v) ∧ n'.hidden = n.hidden ∧ n'.output.W = n.output.W ∧ n'.output.actfunc = n.output.actfunc ∧ n'.cost = n.cost ∧
      ∀ i, (s i).kind = .dense → (s' i).kind = .dense ∧ (s' i).base.W = (s i).base.W ∧ (s' i).base.actfunc = (s i).base.actfunc := by
  have hp := net_forward_keeps junk n.hidden x none (s, n)
  rw [h] at hp
  obtain ⟨p1, p2, -, p4⟩ := hp rfl
  refine ⟨?_, p1.hidden, congrArg (fun c => c.2.2.2) p2, congrArg (fun c => c.2.2.1) p2, p1.cost, fun i hi => ?_⟩
  swap
  · obtain ⟨q1, q2⟩ := p4 i hi
    exact ⟨q1, congrArg (fun c => c.2.2.2) q2, congrArg (fun c => c.2.2.1) q2⟩
  obtain ⟨L, f1⟩ := norm_forward junk (s id).base v hr hc he
  have hs : (⟨(s id).base, .norm v⟩ : HLayer) = s id := by rw [← hk]
  rw [hs] at f1
  set w := if v = 0 then M - m else v with hw
  set st : Store × Net := (s, { n with input := (InputLayer.forwardprop n.input x).2 }) with hst
  have hA : Net.onHidden id (HLayer.forwardpropX junk x) none st = (.ok (Spec.scaled x w), none, (s.put id ⟨L, .norm w⟩, st.2)) := by
    have h1 : HLayer.forwardpropX junk x none (s id) = (.ok (Spec.scaled x w), none, ⟨L, .norm w⟩) := by
      have h0 : HLayer.forwardpropX junk x none (s id) = (match (s id).kind with
        | .dense => HLayer.dense (Layer.forwardpropX x)
        | _ => HLayer.other (fun h => h.forwardprop junk x)) none (s id) := rfl
      rw [h0, hk]
      show HLayer.other (fun h => h.forwardprop junk x) none (s id) = _
      have := ((Refines.exact (HLayer.other_refines (fun h => h.forwardprop junk x)) (s id)).1 _ _).1 f1
      exact this
    show ((HLayer.forwardpropX junk x none (s id)).1, (HLayer.forwardpropX junk x none (s id)).2.1, (s.put id (HLayer.forwardpropX junk x none (s id)).2.2, st.2)) = _
    rw [h1]
  have hX : Net.forwardpropX junk x none (s, n) = (Net.hiddenForwardX junk n.hidden x >>= fun c => (do
      let r ← Net.onOutput (OutputLayer.base (Layer.forwardpropX c))
      X.assign (fun m st => (st.1, { st.2 with result := m })) (fun _ => .ok r)
      X.eval (fun st => .ok st.2.result) : X (Store × Net) (Mat ℝ))) none st := rfl
  rw [hX, hn] at h
  unfold Net.hiddenForwardX at h
  set g : Mat ℝ → X (Store × Net) (Mat ℝ) := fun c => (do
      let c ← X.eval (fun _ => .ok c)
      Net.hiddenForwardX junk ids c) with hg
  set k : Mat ℝ → X (Store × Net) (Mat ℝ) := fun c => (do
      let r ← Net.onOutput (OutputLayer.base (Layer.forwardpropX c))
      X.assign (fun m st => (st.1, { st.2 with result := m })) (fun _ => .ok r)
      X.eval (fun st => .ok st.2.result)) with hk'
  have hB : ((Net.onHidden id (HLayer.forwardpropX junk x) >>= g) >>= k) none st = (g (Spec.scaled x w) >>= k) none (s.put id ⟨L, .norm w⟩, st.2) := by
    rw [bind_def, bind_def, hA]
    rfl
  have hK : Keeps (Spares id) (g (Spec.scaled x w) >>= k) := by
    refine Keeps.bind (spares_trans id) (Keeps.bind (spares_trans id) (Keeps.eval (spares_refl id)) fun c => hiddenForward_spares junk ids c hnd) fun c => ?_
    exact Keeps.bind (spares_trans id) (Keeps.on (Q := fun _ _ => True) (fun _ _ => trivial) fun _ _ _ => rfl) fun r =>
      Keeps.bind (spares_trans id) (Keeps.assign (spares_refl id) (spares_trans id) fun _ _ => rfl) fun _ => Keeps.eval (spares_refl id)
  have h' : (g (Spec.scaled x w) >>= k) none (s.put id ⟨L, .norm w⟩, st.2) = (r, b', s', n') := hB ▸ h
  have := hK none (s.put id ⟨L, .norm w⟩, st.2)
  rw [h'] at this
  have : s' id = s.put id ⟨L, .norm w⟩ id := this
  rw [this, put_same]

theorem bwGo_norm {junk : Nat → Nat → ℝ} {id : Nat} : ∀ {ps : List Nat} {s t : Store} {d e : Mat ℝ}, id ∈ ps → (∃ v, (s id).kind = .norm v) → bwGo junk ps s d = .ok (e, t) → (t id).kind = .norm 0
  | p :: ps, s, t, d, e, hm, ⟨v, hv⟩, h => by
    unfold bwGo at h
    obtain ⟨⟨d', g⟩, h1, h2⟩ := bind_eq_ok h
    simp only at h2
    by_cases hp : id = p
    · subst hp
      have hg : g.kind = .norm 0 := by
        unfold HLayer.backprop at h1
        rw [hv] at h1
        cases h1
        rfl
      by_cases hi : id ∈ ps
      · exact bwGo_norm hi ⟨0, by rw [put_same]; exact hg⟩ h2
      · rw [outside_bwGo h2 id hi, put_same]; exact hg
    · rcases List.mem_cons.1 hm with e | hi
      · exact absurd e hp
      · exact bwGo_norm hi ⟨v, by rw [put_other hp]; exact hv⟩ h2

/-- **C126** (until the next step). `backprop(y)`, whatever the layers around are, leaves 0 in every normalising layer of the network, so a completed backward pass clears the mark. -/
theorem C126_reset {junk : Nat → Nat → ℝ} {s s' : Store} {n n' : Net} {id : Nat} {y : Mat ℝ} {v : ℝ} (hid : id ∈ n.hidden) (hk : (s id).kind = .norm v) (h : n.backprop junk s y = .ok (s', n')) : (s' id).kind = .norm 0 := by
  unfold Net.backprop at h
  obtain ⟨⟨d, o⟩, -, h⟩ := bind_eq_ok h
  obtain ⟨t, h1, h⟩ := bind_eq_ok h
  cases h
  rw [hiddenBackward_eq] at h1
  obtain ⟨⟨e, t⟩, h2, h1⟩ := bind_eq_ok h1
  cases h1
  exact bwGo_norm (List.mem_reverse.2 hid) ⟨v, hk⟩ h2

/-- A backward pass as in the hypotheses of `C126_reset`. -/
example (junk : Nat → Nat → ℝ) : ∃ (s s' : Store) (n n' : Net) (y : Mat ℝ) (v : ℝ), 0 ∈ n.hidden ∧ (s 0).kind = .norm v ∧ n.backprop junk s y = .ok (s', n') ∧ (s' 0).kind = .norm 0 := by
  have hnd : mixNet.hidden.Nodup := by simp [mixNet]
  have hfit : Spec.FitsBatch mixStore mixNet (Mat.of 5 2 fun i _ => (i : ℝ), Mat.of 5 1 fun _ _ => (1 : ℝ)) := (mix_batch _ _).2 ⟨⟨by show 0 < 5; omega, rfl⟩, rfl, rfl⟩
  obtain ⟨s3, n3, e, -⟩ := (C125_training (junk := junk) hnd mix_simple (Or.inl rfl) _ _).1 hfit
  unfold Net.trainOn at e
  obtain ⟨⟨r, s1, n1⟩, h1, e⟩ := bind_eq_ok e
  obtain ⟨⟨s2, n2⟩, h2, -⟩ := bind_eq_ok e
  obtain ⟨r', t, e1, -, -, -, -, e2⟩ := (mixed_forward (junk := junk) (W := mixNet.output.W) hnd mix_simple).1 hfit.1
  unfold Net.forwardprop InputLayer.forwardprop at h1
  simp only at h1
  rw [e1, ok_bind] at h1
  obtain ⟨⟨a, o⟩, -, h1⟩ := bind_eq_ok h1
  cases h1
  obtain ⟨-, -, hk⟩ := (e2 0 (by simp [mixNet])).1
  have hv : ∃ v, (t 0).kind = .norm v := by
    rw [show (mixStore 0).kind = .norm 0 from rfl] at hk
    cases hh : (t 0).kind <;> rw [hh] at hk <;> first | exact hk.elim | exact ⟨_, rfl⟩
  obtain ⟨v, hv⟩ := hv
  exact ⟨t, s2, _, n2, _, v, by simp [mixNet], hv, h2, C126_reset (by simp [mixNet]) hv h2⟩

/-- A sample of three values with the range 2. -/
def psnBad : Mat ℝ := Mat.of 1 3 fun _ j => if j = 0 then 0 else 2

theorem psnBad_range : Spec.Extremes psnBad 2 0 := by
  have f : ∀ j < 3, psnBad.f 0 j = if j = 0 then 0 else 2 := fun j hj => by unfold psnBad; rw [Mat.of_f' (by omega) hj]
  refine ⟨fun i j hi hj => ?_, ⟨0, 1, by decide, by decide, by rw [f 1 (by omega)]; simp⟩, ⟨0, 0, by decide, by decide, by rw [f 0 (by omega)]; simp⟩⟩
  have hi : i < 1 := hi
  obtain rfl : i = 0 := by omega
  rw [f j hj]
  split <;> constructor <;> norm_num

/-- **C126** (a rejected sample changes predictions). The network takes two values per sample. It puts the sample `x` into class 1. Given a sample with three values, `forwardprop` throws. If the caller catches the exception and
goes on, the network puts `x` into class 0. -/
theorem C126_poison (junk : Nat → Nat → ℝ) : ∃ (s : Store) (n : Net) (x bad r1 r2 : Mat ℝ) (s1 s' s2 : Store) (n1 n' n2 : Net) (b' : Option Fault), n.WFN s 2 2 ∧ x.nr = 1 ∧ bad.nr = 1 ∧ bad.nc = 3 ∧
    n.predict junk s x = .ok (r1, s1, n1) ∧ r1.f 0 0 = 1 ∧
    Net.forwardpropX junk bad none (s, n) = (.error .throw, b', s', n') ∧ n'.predict junk s' x = .ok (r2, s2, n2) ∧ r2.f 0 0 = 0 := by
  have hx : (nrmX 1).f 0 1 = 1 := by unfold nrmX; rw [Mat.of_f' (by omega) (by omega)]; simp
  obtain ⟨r1, s1, n1, e1, -, -, -, -, -, c1⟩ := nrm_class (junk := junk) (x := nrmX 1) (c := 1) nrm_wfn rfl rfl rfl (show (nrmStore 0).kind = .norm 0 from rfl) (by norm_num) (fun h => absurd rfl h)
    (fun _ => ⟨1, 0, nrmX_range (by norm_num), by norm_num⟩) (by decide) rfl
  have hthrow : nrmNet.forwardprop junk nrmStore psnBad = .error .throw := by
    refine (C125_forward (s := nrmStore) (n := nrmNet) (by simp [nrmNet]) (fun id _ => trivial) psnBad).2 fun h => ?_
    have h2 : Spec.Chains 3 [nrmNet.output.W] := h.2
    have : (3 : Nat) = 3 + 1 := h2.2.1
    omega
  have hX : (Net.forwardpropX junk psnBad none (nrmStore, nrmNet)).1 = .error .throw := by
    refine ((Refines.exact (Net.forwardpropX_refines junk psnBad) (nrmStore, nrmNet)).2 .throw).1 ?_
    show nrmNet.forwardprop junk nrmStore psnBad >>= _ = _
    rw [hthrow]
    rfl
  rcases hh : Net.forwardpropX junk psnBad none (nrmStore, nrmNet) with ⟨r, b', s', n'⟩
  rw [hh] at hX
  obtain rfl : r = .error .throw := hX
  obtain ⟨k1, k2, k3, k4, -⟩ := C126_left (junk := junk) (id := 0) (ids := []) rfl (by simp) (show (nrmStore 0).kind = .norm 0 from rfl) (by decide) (by decide) psnBad_range hh
  rw [if_pos rfl, sub_zero] at k1
  have hwf : n'.WFN s' 2 2 := by
    refine ⟨by rw [k2]; exact nrm_wfn.nodup, by omega, 2, ?_, by rw [k3]; rfl, by rw [k3]; rfl, by omega⟩
    rw [k2]
    show Spec.Chain s' 2 [0] 2
    unfold Spec.Chain
    rw [k1]
    rfl
  obtain ⟨r2, s2, n2, e2, -, -, -, -, -, c2⟩ := nrm_class (junk := junk) (x := nrmX 1) (c := 2) hwf k2 k3 k4 k1 (by norm_num) (fun _ => rfl) (fun h => by norm_num at h) (by decide) rfl
  exact ⟨nrmStore, nrmNet, nrmX 1, psnBad, r1, r2, s1, s', s2, n1, n', n2, b', nrm_wfn, rfl, rfl, rfl, e1, (c1 0 (by decide)).1 (by rw [hx]; norm_num), hh, e2, (c2 0 (by decide)).2 (by rw [hx]; norm_num)⟩

end
end Nnet.NN
