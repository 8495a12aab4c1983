import Verif.NN.WitnessMore
import Verif.NN.PropsExn4
import Verif.NN.PropsIsolation
import Verif.NN.PropsText
import Verif.NN.PropsShare
/-!
# The hypotheses of further theorems are met (5): files, sharing, exceptions
-/
namespace Nnet.NN
open Finset
noncomputable section
namespace Witness

/-! ## C35, C36, C37 -/

example := C35_library (s := exStore) (s' := exStore) (n := exNet) (n' := exNet) rfl (by simp [exNet]) "model" (fun _ => none)
example (io : TextIO) (round : ℝ → ℝ) (hc : Spec.Converts io round) :=
  C35_roundtrip hc (s := exStore) (s' := exStore) (n := exNet) (n' := exNet) rfl (by simp [exNet]) "model" (fun _ => none)
example (io : TextIO) (round : ℝ → ℝ) (hc : Spec.Converts io round) (k : Nat) : ∃ fs', exNet.saveCrash io exStore "model" k (fun _ => none) = .ok fs' ∧
    ∃ s'' n'', exNet.load io exStore "model" fs' = .ok (s'', n'') :=
  ⟨_, rfl, by
    obtain ⟨s'', n'', e, -⟩ := C36_crash hc (s := exStore) (s' := exStore) (n := exNet) (n' := exNet) rfl (by simp [exNet]) (path := "model") (k := k) (fs := fun _ => none) rfl
    exact ⟨s'', n'', e⟩⟩
example : ∃ fs' text, exNet.save libText exStore "model" true (fun _ => none) = .ok fs' ∧ fs' "model" = some text ∧
    ∃ post, text.drop (Spec.startOf libText.fmt ((exNet.layers exStore).map (·.W)) 0 1 2) = libText.fmt (-1) ++ ' ' :: post := by
  obtain ⟨fs', -, -, e, -⟩ := C35_library (s := exStore) (s' := exStore) (n := exNet) (n' := exNet) rfl (by simp [exNet]) "model" (fun _ => none)
  obtain ⟨text, e1, e2⟩ := C36_startOf e
  refine ⟨fs', text, e, e1, ?_⟩
  have := e2 0 (exStore 7).base 1 2 rfl (by show 1 < 3; omega) (by show 2 < 3; omega)
  rwa [show (exStore 7).base.W.f 1 2 = -1 by show (Mat.of 3 3 (fun i j => (i : ℝ) - j)).f 1 2 = -1; rw [Mat.of_f' (by omega) (by omega)]; norm_num] at this

example (dist : Draws) (junk : Nat → Nat → ℝ) : ∃ m s' L, exNet.copyCtor dist junk = .ok m ∧ m.sethiddenw exStore 0 (Mat.of 3 3 (fun _ _ => 9)) = .ok s' ∧ exNet.gethidden s' 0 = .ok L ∧ L.W = Mat.of 3 3 (fun _ _ => 9) := by
  obtain ⟨m, e⟩ : ∃ m, exNet.copyCtor dist junk = .ok m := by
    obtain ⟨L', e, -⟩ := C54_new_layer dist junk (exNet.input.getpnnodes) exNet.input.getnnodes exNet.input.lrate 1 exNet.input.lambda exNet.input.actfunc
    exact ⟨_, rfl⟩
  have hsh := C37_shared (.inl e) (self := exNet) exStore 0
  obtain ⟨s', hs⟩ : ∃ s', m.sethiddenw exStore 0 (Mat.of 3 3 (fun _ _ => 9)) = .ok s' := by cases e; exact ⟨_, rfl⟩
  obtain ⟨L, h1, h2⟩ := C37_refuted (.inl e) (self := exNet) hs
  exact ⟨m, s', L, e, hs, h1, h2⟩

/-- Two networks with different layers: what is set in one does not change what the other computes. -/
example (e : Spec.Env) : ∃ s' m', Spec.runAll e exStore { exNet with hidden := [8] } [.setlrate 3, .sethiddenw 0 (Mat.of 3 3 (fun _ _ => 9))] = .ok (s', m') ∧
    ∀ x, Spec.computes e s' exNet x = Spec.computes e exStore exNet x := by
  obtain ⟨⟨s', m'⟩, h⟩ : ∃ r, Spec.runAll e exStore { exNet with hidden := [8] } [.setlrate 3, .sethiddenw 0 (Mat.of 3 3 (fun _ _ => 9))] = .ok r := ⟨_, rfl⟩
  exact ⟨s', m', h, (C37_disjoint (n := exNet) (by simp [exNet]) h).1⟩
/-- A network without hidden layers: the copy is independent. -/
def flatNet : Net := { linNet with hidden := [] }
example (e : Spec.Env) (s : Store) : ∃ s' k, Spec.runAll e s (Net.assign exNet flatNet) [.setlrate 3, .setoutputw (Mat.of 2 1 (fun _ _ => 9))] = .ok (s', k) ∧
    ∀ x, Spec.computes e s' flatNet x = Spec.computes e s flatNet x := by
  obtain ⟨⟨s', k⟩, h⟩ : ∃ r, Spec.runAll e s (Net.assign exNet flatNet) [.setlrate 3, .setoutputw (Mat.of 2 1 (fun _ _ => 9))] = .ok r := ⟨_, rfl⟩
  exact ⟨s', k, h, (C37_copy_partial (n := flatNet) (self := exNet) rfl (.inr rfl)).1 h⟩

/-! ## C66, C80, C82 -/

example (e : Spec.Env) (fs : Files) := C66_isolation e 0 [(0, .setlrate 1), (1, .setlrate 2), (1, .save "b" true), (0, .save "a" true), (1, .load "b")] fs exStore (fun k => { exNet with hidden := [k] })
  (by intro j hj p hp; simp only [List.mem_singleton] at hp ⊢; omega)
  (by
    intro c hc d hd h1 h2 p hp
    simp only [List.mem_cons, List.not_mem_nil, or_false] at hc hd
    rcases hc with rfl | rfl | rfl | rfl | rfl <;> simp_all [Spec.Method.path?] <;> rcases hd with rfl | rfl | rfl | rfl | rfl <;> simp_all <;> rw [← hp] <;> decide)

/-- Memory is exhausted while the momentum trainer, the batch trainer, the stochastic trainer and the plain trainer work on a network. -/
example (junk : Nat → Nat → ℝ) (f : Fault) := C82_passes (junk := junk) (s := exStore) (n := exNet) (s' := (Net.forwardpropX junk exX (some f) (exStore, exNet)).2.2.1)
  (n' := (Net.forwardpropX junk exX (some f) (exStore, exNet)).2.2.2) (fun _ _ => rfl) exX (some f) (Net.forwardpropX junk exX (some f) (exStore, exNet)).2.1
example (f : Fault) := C82_update (s := exStore) (n := exNet) (b := some f) (by simp [exNet]) (fun _ _ => rfl) (by rfl)
example (f : Fault) := C82_updateWith (s := exStore) (n := exNet) (b := some f) (og := Mat.of 4 2 (fun _ _ => 1)) (hg := [Mat.of 3 3 (fun _ _ => 1)]) (by simp [exNet]) (fun _ _ => rfl) (by show 1 ≤ 1; omega) (by rfl)
example (junk : Nat → Nat → ℝ) := C82_step (junk := junk) (x := exX) (y := exY) (b := some ⟨0, true⟩) (er := .throw) exNet_wf rfl
example (junk : Nat → Nat → ℝ) := C82_trainer (junk := junk) (w := exWorld) (t := .new 0) (x := exX) (y := exY) (b := some ⟨0, true⟩) (er := .throw) exNet_wf rfl
example (junk : Nat → Nat → ℝ) := C82_sgd (junk := junk) (w := exWorld) (t := .new 0) (x := exX) (y := exY) (b := some ⟨0, true⟩) (er := .throw) exNet_wf rfl
example (junk : Nat → Nat → ℝ) := C82_batch (junk := junk) (w := exWorld) (t := batTrainer) (x := exX) (y := exY) (b := some ⟨0, true⟩) (er := .throw) exNet_wf (by show 0 < 2 ^ 64; norm_num) rfl
example (junk : Nat → Nat → ℝ) := C82_momentum (junk := junk) (w := exWorld) (t := MomentumTrainer.new exWorld 0 (1 / 2)) (x := exX) (y := exY) (b := some ⟨0, true⟩) (er := .throw) exNet_wf (by rfl)
  (by show 0 + 1 < 2 ^ 64; norm_num) rfl
example (junk : Nat → Nat → ℝ) := C82_recovers (junk := junk) (x := exX) (y := exY) (b := some ⟨0, true⟩) (er := .throw) (bs := [(exX, exY)]) exNet_wf C54_costs.1
  (by intro b hb; rw [List.mem_singleton.1 hb]; exact ⟨hx, rfl, rfl, rfl⟩) rfl

end Witness
end
end Nnet.NN
