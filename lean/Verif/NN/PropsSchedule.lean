import Verif.NN.PropsDecay
import Verif.NN.WitnessTrain
/-!
# C39 from the constructors on: the schedule a user asks for is the schedule the network gets
-/
namespace Nnet.NN
open Finset
noncomputable section

/-! ## Specification -/

/-- The rates of network `id` after some calls: all `r0 * exp(-k * step)` if `due`, else as before. -/
def Spec.Scheduled (w w' : World) (id : Nat) (r0 k : ℝ) (step : Nat) (due : Prop) : Prop :=
  (due → (w'.nets id).AllRates w'.store (r0 * Real.exp (-k * step))) ∧ (¬ due → SameRates w.store (w.nets id) w'.store (w'.nets id))

/-- The number of batches of at most `b` rows that the data of `ds` make. -/
def Spec.batchCount (b : Nat) (ds : List (Mat ℝ × Mat ℝ)) : Nat := (ds.map (fun d => (d.1.nr + b - 1) / b)).sum

/-! ## The theorems -/

/-- **C39, from the constructors on.** A `Trainer`, `SGDTrainer` or `MomentumTrainer` constructed with `(r0, k, step)` sets the rates of its network to `r0 * exp(-k * step)` in call
number `step`; one constructed without never changes a rate. -/
theorem C39_constructed (junk : Nat → Nat → ℝ) (w w' : World) (id : Nat) (m r0 k : ℝ) (step : Nat) (ds : List (Mat ℝ × Mat ℝ)) (hl : ds.length < 2 ^ 64) :
    (∀ t', feedAll (fun w (t : Trainer) => t.feeddata junk w) w (.newDecay id r0 k step) ds = .ok (w', t') → Spec.Scheduled w w' id r0 k step (1 ≤ step ∧ step ≤ ds.length)) ∧
    (∀ t', feedAll (fun w (t : Trainer) => SGD.feeddata junk w t) w (.newDecay id r0 k step) ds = .ok (w', t') → Spec.Scheduled w w' id r0 k step (1 ≤ step ∧ step ≤ ds.length)) ∧
    (∀ t', feedAll (fun w (t : MomentumTrainer) => t.feeddata junk w) w (.newDecay w id m r0 k step) ds = .ok (w', t') → Spec.Scheduled w w' id r0 k step (1 ≤ step ∧ step ≤ ds.length)) ∧
    (∀ t', feedAll (fun w (t : Trainer) => t.feeddata junk w) w (.new id) ds = .ok (w', t') → Spec.Scheduled w w' id r0 k step False) ∧
    (∀ t', feedAll (fun w (t : Trainer) => SGD.feeddata junk w t) w (.new id) ds = .ok (w', t') → Spec.Scheduled w w' id r0 k step False) ∧
    (∀ t', feedAll (fun w (t : MomentumTrainer) => t.feeddata junk w) w (.new w id m) ds = .ok (w', t') → Spec.Scheduled w w' id r0 k step False) := by
  obtain ⟨h1, h2, h3⟩ := C39_history junk
  refine ⟨fun t' h => ?_, fun t' h => ?_, fun t' h => ?_, fun t' h => ?_, fun t' h => ?_, fun t' h => ?_⟩
  · obtain ⟨-, a, b⟩ := h1 _ _ _ _ _ rfl hl h
    exact ⟨fun hd => a ⟨rfl, hd⟩, fun hd => b fun hh => hd hh.2⟩
  · obtain ⟨-, a, b⟩ := h2 _ _ _ _ _ rfl hl h
    exact ⟨fun hd => a ⟨rfl, hd⟩, fun hd => b fun hh => hd hh.2⟩
  · obtain ⟨-, a, b⟩ := h3 _ _ _ _ _ rfl hl h
    exact ⟨fun hd => a ⟨rfl, hd⟩, fun hd => b fun hh => hd hh.2⟩
  · obtain ⟨-, a, b⟩ := h1 _ _ _ _ _ rfl hl h
    exact ⟨fun hd => hd.elim, fun _ => b fun hh => absurd hh.1 (by simp [Trainer.new])⟩
  · obtain ⟨-, a, b⟩ := h2 _ _ _ _ _ rfl hl h
    exact ⟨fun hd => hd.elim, fun _ => b fun hh => absurd hh.1 (by simp [Trainer.new])⟩
  · obtain ⟨-, a, b⟩ := h3 _ _ _ _ _ rfl hl h
    exact ⟨fun hd => hd.elim, fun _ => b fun hh => absurd hh.1 (by simp [MomentumTrainer.new, MomentumTrainer.initmomentum, Trainer.new])⟩

theorem batch_conf {junk : Nat → Nat → ℝ} {w w' : World} {t t' : BatchTrainer} {x y : Mat ℝ} (h : t.feeddata junk w x y = .ok (w', t')) :
    t'.nnet = t.nnet ∧ t'.step = t.step ∧ t'.usedecay = t.usedecay ∧ t'.k = t.k ∧ t'.r0 = t.r0 ∧ t'.batchsize = t.batchsize := by
  unfold BatchTrainer.feeddata at h
  obtain ⟨tx, h1, h⟩ := bind_eq_ok h
  obtain ⟨ty, h2, h⟩ := bind_eq_ok h
  obtain ⟨⟨it, s, n⟩, h3, h⟩ := bind_eq_ok h
  cases h
  exact ⟨rfl, rfl, rfl, rfl, rfl, rfl⟩

theorem batch_history {junk : Nat → Nat → ℝ} : ∀ (ds : List (Mat ℝ × Mat ℝ)) (w : World) (t : BatchTrainer) (w' : World) (t' : BatchTrainer),
    t.iters + Spec.batchCount t.batchsize.toNat ds < 2 ^ 64 → feedAll (fun w (t : BatchTrainer) => t.feeddata junk w) w t ds = .ok (w', t') →
    t'.iters = t.iters + Spec.batchCount t.batchsize.toNat ds ∧
    Spec.Scheduled w w' t.nnet t.r0 t.k t.step (t.usedecay = true ∧ ∃ c < ds.length, t.iters + Spec.batchCount t.batchsize.toNat (ds.take (c + 1)) = t.step)
  | [], w, t, w', t', hl, h => by
    cases h
    exact ⟨rfl, fun ⟨_, c, hc, _⟩ => absurd hc (by simp), fun _ => .rfl⟩
  | d :: ds, w, t, w', t', hl, h => by
    unfold feedAll at h
    obtain ⟨⟨w1, t1⟩, h1, h⟩ := bind_eq_ok h
    have cnt : ∀ l, Spec.batchCount t.batchsize.toNat (d :: l) = (d.1.nr + t.batchsize.toNat - 1) / t.batchsize.toNat + Spec.batchCount t.batchsize.toNat l := fun l => by
      simp [Spec.batchCount]
    rw [cnt] at hl
    obtain ⟨e1, e2, e3⟩ := C39_batch_call (Nat.lt_of_le_of_lt (Nat.le_add_right _ _) hl) h1
    obtain ⟨c1, c2, c3, c4, c5, c6⟩ := batch_conf h1
    rw [Nat.mod_eq_of_lt (Nat.lt_of_le_of_lt (by rw [← Nat.add_assoc]; exact Nat.le_add_right _ _) hl)] at e1
    obtain ⟨f1, f2, f3⟩ := batch_history ds w1 t1 w' t' (by rw [c6]; omega) h
    rw [c6] at f1 f2 f3
    rw [c1, c2, c3, c4, c5] at f2
    rw [c1, c2, c3] at f3
    refine ⟨by rw [f1, cnt]; omega, fun ⟨hd, c, hc, hs⟩ => ?_, fun hd => ?_⟩
    · by_cases later : ∃ c < ds.length, t1.iters + Spec.batchCount t.batchsize.toNat (ds.take (c + 1)) = t.step
      · exact f2 ⟨hd, later⟩
      · have c0 : c = 0 := by
          by_contra hne
          refine later ⟨c - 1, by simp at hc; omega, ?_⟩
          rw [List.take_succ_cons, cnt] at hs
          rw [Nat.sub_add_cancel (by omega)]
          omega
        subst c0
        simp only [Nat.zero_add, List.take_succ_cons, List.take_zero] at hs
        rw [cnt] at hs
        have := e2 hd (by simp [Spec.batchCount] at hs; omega)
        exact (f3 fun hh => later hh.2).all this.2
    · have n1 : ¬ (t.usedecay = true ∧ t1.iters = t.step) := fun ⟨g1, g2⟩ => hd ⟨g1, 0, by simp, by simp only [Nat.zero_add, List.take_succ_cons, List.take_zero]; rw [cnt]; simp [Spec.batchCount]; omega⟩
      refine (e3 n1).trans (f3 fun ⟨g1, c, hc, hs⟩ => hd ⟨g1, c + 1, by simp; omega, ?_⟩)
      rw [List.take_succ_cons, cnt]
      omega

/-- **C39, `BatchTrainer` from the constructors on.** It counts batches: the rates of its network become `r0 * exp(-k * step)` at the end of a call after which exactly `step` batches were trained, and if no call ends
there, never. -/
theorem C39_batch_constructed (junk : Nat → Nat → ℝ) (w w' : World) (id : Nat) (b : Int) (r0 k : ℝ) (step : Nat) (ds : List (Mat ℝ × Mat ℝ)) (hl : Spec.batchCount b.toNat ds < 2 ^ 64) :
    (∀ t', feedAll (fun w (t : BatchTrainer) => t.feeddata junk w) w (.newDecay id b r0 k step) ds = .ok (w', t') →
      Spec.Scheduled w w' id r0 k step (∃ c < ds.length, Spec.batchCount b.toNat (ds.take (c + 1)) = step)) ∧
    (∀ t', feedAll (fun w (t : BatchTrainer) => t.feeddata junk w) w (.new id b) ds = .ok (w', t') → Spec.Scheduled w w' id r0 k step False) := by
  constructor
  · intro t' h
    obtain ⟨-, a, c⟩ := batch_history ds w (.newDecay id b r0 k step) w' t' (by show 0 + _ < _; rw [Nat.zero_add]; exact hl) h
    simp only [show (BatchTrainer.newDecay id b r0 k step).iters = 0 from rfl, Nat.zero_add] at a c
    exact ⟨fun hd => a ⟨rfl, hd⟩, fun hd => c fun hh => hd hh.2⟩
  · intro t' h
    obtain ⟨-, a, c⟩ := batch_history ds w (.new id b) w' t' (by show 0 + _ < _; rw [Nat.zero_add]; exact hl) h
    exact ⟨fun hd => hd.elim, fun _ => c fun hh => absurd hh.1 (by simp [BatchTrainer.new, Trainer.new])⟩

/-- Five samples in batches of two, the decay due after three batches: the rates are set. -/
example (junk : Nat → Nat → ℝ) : ∃ w' t', feedAll (fun w (t : BatchTrainer) => t.feeddata junk w) Witness.exWorld (.newDecay 0 2 (1 / 10) 1 3) [(exX, exY)] = .ok (w', t') ∧
    (w'.nets 0).AllRates w'.store (1 / 10 * Real.exp (-1 * (3 : Nat))) := by
  obtain ⟨w', t', e⟩ := Witness.batFeed junk
  have e' : feedAll (fun w (t : BatchTrainer) => t.feeddata junk w) Witness.exWorld (.newDecay 0 2 (1 / 10) 1 3) [(exX, exY)] = .ok (w', t') := by
    unfold feedAll; simp only; rw [e]; rfl
  exact ⟨w', t', e', ((C39_batch_constructed junk _ w' 0 2 (1 / 10) 1 3 _ (by decide)).1 t' e').1 ⟨0, by simp, by decide⟩⟩

/-- A trainer with the decay due in its first call. -/
example (junk : Nat → Nat → ℝ) : ∃ w' t', feedAll (fun w (t : Trainer) => t.feeddata junk w) Witness.exWorld (.newDecay 0 (1 / 10) 2 1) [(exX, exY)] = .ok (w', t') ∧
    (w'.nets 0).AllRates w'.store (1 / 10 * Real.exp (-2 * (1 : Nat))) := by
  obtain ⟨c, w', t', e⟩ := (C57_succeeds (junk := junk) Witness.exFits false).1 (.newDecay 0 (1 / 10) 2 1) rfl
  have e1 := (C57_trainer (p := 2) (q := 2) exNet_wf Witness.hx rfl e).1
  have e' : feedAll (fun w (t : Trainer) => t.feeddata junk w) Witness.exWorld (.newDecay 0 (1 / 10) 2 1) [(exX, exY)] = .ok (w', t') := by
    unfold feedAll; simp only; rw [e1]; rfl
  exact ⟨w', t', e', ((C39_constructed junk _ w' 0 0 (1 / 10) 2 1 _ (by simp)).1 t' e').1 (by simp)⟩

end
end Nnet.NN
