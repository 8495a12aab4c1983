import Verif.Core
namespace Nnet

theorem forM_cons' {α : Type _} (a : α) (l : List α) (f : α → Res Unit) :
    (a :: l).forM f = (f a >>= fun _ => l.forM f) := rfl

theorem forM_ok {α : Type _} {l : List α} {f : α → Res Unit} (h : ∀ x ∈ l, f x = .ok ()) : l.forM f = .ok () := by
  induction l with
  | nil => rfl
  | cons a l ih =>
    rw [forM_cons', h a (by simp), ok_bind, ih (fun x hx => h x (by simp [hx]))]

theorem forM_eq_ok {α : Type _} {l : List α} {f : α → Res Unit} : l.forM f = .ok () ↔ ∀ x ∈ l, f x = .ok () := by
  refine ⟨?_, forM_ok⟩
  induction l with
  | nil => simp
  | cons a l ih =>
    rw [forM_cons']
    cases hf : f a with
    | error e => simp
    | ok u => intro h; simp at h; simp [hf]; exact ih h

/-- If every check passes or fails with `e`, and one fails, the whole loop fails with `e`. -/
theorem forM_error {α : Type _} {l : List α} {f : α → Res Unit} {e : Stop} (h : ∀ x ∈ l, f x = .ok () ∨ f x = .error e)
    (hx : ∃ x ∈ l, f x ≠ .ok ()) : l.forM f = .error e := by
  induction l with
  | nil => simp at hx
  | cons a l ih =>
    rw [forM_cons']
    rcases h a (by simp) with ha | ha
    · rw [ha, ok_bind]
      apply ih (fun x hx => h x (by simp [hx]))
      obtain ⟨x, hm, hx⟩ := hx
      rcases List.mem_cons.1 hm with rfl | hm
      · exact absurd ha hx
      · exact ⟨x, hm, hx⟩
    · rw [ha, error_bind]

theorem mapM_cons' {α β : Type _} (a : α) (l : List α) (f : α → Res β) :
    (a :: l).mapM f = (f a >>= fun b => l.mapM f >>= fun bs => .ok (b :: bs)) := by
  rw [List.mapM_cons]; rfl

theorem mapM_ok {α β : Type _} {l : List α} {f : α → Res β} (g : α → β) (h : ∀ x ∈ l, f x = .ok (g x)) :
    l.mapM f = .ok (l.map g) := by
  induction l with
  | nil => rfl
  | cons a l ih =>
    rw [mapM_cons', h a (by simp), ok_bind, ih (fun x hx => h x (by simp [hx]))]; rfl

theorem mapM_eq_ok {α β : Type _} {l : List α} {f : α → Res β} {r : List β} (h : l.mapM f = .ok r) :
    r.length = l.length ∧ ∀ (i : Nat) (hi : i < l.length) (hr : i < r.length), f l[i] = .ok r[i] := by
  induction l generalizing r with
  | nil => cases h; simp
  | cons a l ih =>
    rw [mapM_cons'] at h
    cases hf : f a with
    | error e => simp [hf] at h
    | ok b =>
      rw [hf, ok_bind] at h
      cases hm : l.mapM f with
      | error e => simp [hm] at h
      | ok bs =>
        rw [hm, ok_bind] at h; cases h
        obtain ⟨h1, h2⟩ := ih hm
        refine ⟨by simp [h1], fun i hi hr => ?_⟩
        cases i with
        | zero => simpa using hf
        | succ i => simpa using h2 i (by simpa using hi) (by simpa using hr)

theorem mapM_mem_ok {α β : Type _} {l : List α} {f : α → Res β} {r : List β} (h : l.mapM f = .ok r) :
    ∀ x ∈ l, ∃ y ∈ r, f x = .ok y := by
  intro x hx
  obtain ⟨i, hi, rfl⟩ := List.getElem_of_mem hx
  obtain ⟨h1, h2⟩ := mapM_eq_ok h
  exact ⟨r[i]'(by omega), List.getElem_mem _, h2 i hi (by omega)⟩

theorem mapM_error {α β : Type _} {l : List α} {f : α → Res β} {e : Stop} (h : l.mapM f = .error e) :
    ∃ x ∈ l, f x = .error e := by
  induction l with
  | nil => cases h
  | cons a l ih =>
    rw [mapM_cons'] at h
    cases hf : f a with
    | error e' => rw [hf, error_bind] at h; cases h; exact ⟨a, by simp, hf⟩
    | ok b =>
      rw [hf, ok_bind] at h
      cases hm : l.mapM f with
      | error e' =>
        rw [hm, error_bind] at h; cases h
        obtain ⟨x, hx, he⟩ := ih hm
        exact ⟨x, by simp [hx], he⟩
      | ok bs => rw [hm, ok_bind] at h; cases h

end Nnet
