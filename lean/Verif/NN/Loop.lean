import Verif.CoreLemmas
/-! # Counting loops -/
namespace Nnet.NN

/-- `for (i = 0; i < n; ++i) body`. -/
def loop {σ : Type _} : (n : Nat) → (body : Nat → σ → Res σ) → σ → Res σ
  | 0, _, s => .ok s
  | n + 1, body, s => do
    let s' ← loop n body s
    body n s'

/-- Invariant rule for loops that end normally. -/
theorem loop_inv {σ : Type _} {n : Nat} {body : Nat → σ → Res σ} {s : σ} (P : Nat → σ → Prop) (h0 : P 0 s)
    (hs : ∀ i s, i < n → P i s → ∃ s', body i s = .ok s' ∧ P (i + 1) s') : ∃ s', loop n body s = .ok s' ∧ P n s' := by
  induction n with
  | zero => exact ⟨s, rfl, h0⟩
  | succ n ih =>
    obtain ⟨s1, h1, hp⟩ := ih (fun i s hi => hs i s (by omega))
    obtain ⟨s2, h2, hp2⟩ := hs n s1 (by omega) hp
    exact ⟨s2, by simp [loop, h1, h2], hp2⟩

/-- A loop whose every iteration ends normally with a known result. -/
theorem loop_eq {σ : Type _} {n : Nat} {body : Nat → σ → Res σ} {s : σ} (st : Nat → σ) (h0 : st 0 = s)
    (hs : ∀ i, i < n → body i (st i) = .ok (st (i + 1))) : loop n body s = .ok (st n) := by
  obtain ⟨s', h, rfl⟩ := loop_inv (n := n) (body := body) (s := s) (fun i t => t = st i) h0.symm
    (fun i t hi ht => ⟨_, by rw [ht]; exact hs i hi, rfl⟩)
  exact h

/-- Exiting early: the first iteration that stops determines the result. -/
theorem loop_error {σ : Type _} {n k : Nat} {body : Nat → σ → Res σ} {s : σ} {e : Stop} (st : Nat → σ) (h0 : st 0 = s) (hk : k < n)
    (hs : ∀ i, i < k → body i (st i) = .ok (st (i + 1))) (he : body k (st k) = .error e) : loop n body s = .error e := by
  induction n with
  | zero => omega
  | succ n ih =>
    rcases Nat.lt_or_ge k n with h | h
    · simp [loop, ih h]
    · have : k = n := by omega
      subst this
      simp [loop, loop_eq st h0 hs, he]

end Nnet.NN
