import Verif.NN.PropsExperiment
import Verif.NN.TrainLemmas
/-! # C113: which files are accepted -/
namespace Nnet.NN
namespace Experiment
open Classical TestData Spec Finset

theorem loop_throws {σ : Type _} : ∀ {n : Nat} {b : Nat → σ → Res σ} {s : σ} {e : Stop}, (∀ i s e, b i s = .error e → e = .throw) → loop n b s = .error e → e = .throw
  | 0, _, _, _, _, h => by cases h
  | n + 1, b, s, e, hb, h => by
    unfold loop at h
    cases h1 : loop n b s with
    | error e' =>
      rw [h1] at h
      have := loop_throws hb h1
      injection h with h
      rw [← h, this]
    | ok s1 =>
      rw [h1] at h
      exact hb n s1 e h

theorem column_cases (rows : List (List (List Char))) (i : Nat) :
    (∀ r ∈ rows, i < r.length) ∧ column rows i = .ok (colOf rows i) ∨ (∃ r ∈ rows, r.length ≤ i) ∧ column rows i = .error .throw := by
  by_cases h : ∀ r ∈ rows, i < r.length
  · exact Or.inl ⟨h, column_ok h⟩
  · refine Or.inr ⟨by push Not at h; exact h, ?_⟩
    unfold column
    induction rows with
    | nil => simp at h
    | cons r rs ih =>
      rw [List.mapM_cons]
      by_cases hr : i < r.length
      · rw [List.getElem?_eq_getElem hr]
        have : ¬ ∀ r ∈ rs, i < r.length := fun hh => h (fun r' hr' => by
          rcases List.mem_cons.1 hr' with rfl | hr'
          · exact hr
          · exact hh r' hr')
        dsimp only
        rw [ok_bind, ih this]
        rfl
      · rw [List.getElem?_eq_none (by omega)]
        rfl

theorem numericColumn_readable {float : List Char → Option ℝ} {col : List (List Char)} {i : Nat} {t t' : Table} (h : numericColumn float col i t = .ok t') : ∀ s ∈ col, (float s).isSome := by
  intro s hs
  obtain ⟨j, hj, rfl⟩ := List.mem_iff_getElem.1 hs
  obtain ⟨a, a', e⟩ := loop_ok_body h j hj
  have : col.getD j [] = col[j] := by simp [List.getD, hj]
  rw [this] at e
  cases hf : float col[j] with
  | some v => rfl
  | none => rw [hf] at e; cases e

theorem numericColumn_throws {float : List Char → Option ℝ} {col : List (List Char)} {i : Nat} {t : Table} {e : Stop} (h : numericColumn float col i t = .error e) : e = .throw :=
  loop_throws (fun j s e he => by
    split at he
    · cases he
    · injection he with he; exact he.symm) h

theorem table_throws {float : List Char → Option ℝ} {rows : List (List (List Char))} {cols : Nat} {e : Stop} (h : table float rows cols = .error e) : e = .throw :=
  loop_throws (fun i t e he => by
    rcases column_cases rows i with ⟨-, hc⟩ | ⟨-, hc⟩
    · rw [hc, ok_bind] at he
      split at he
      · exact numericColumn_throws he
      · rw [namedColumn_ok] at he; cases he
    · rw [hc] at he
      injection he with he
      exact he.symm) h

theorem table_readable {float : List Char → Option ℝ} {r : List (List Char)} {rs : List (List (List Char))} {t : Table} (h : table float (r :: rs) r.length = .ok t) :
    Readable float (r :: rs) r.length := by
  have hb := loop_ok_body h
  refine ⟨⟨r, rs, rfl, rfl⟩, fun r' hr => ?_, fun i hi hn s hs => ?_⟩
  · by_contra hlt
    obtain ⟨a, a', e⟩ := hb r'.length (by omega)
    rcases column_cases (r :: rs) r'.length with ⟨hc, -⟩ | ⟨-, hc⟩
    · exact absurd (hc r' hr) (by omega)
    · rw [hc] at e; cases e
  · obtain ⟨a, a', e⟩ := hb i hi
    rcases column_cases (r :: rs) i with ⟨-, hc⟩ | ⟨-, hc⟩
    · rw [hc, ok_bind, if_pos ((isallnum_iff _).2 hn)] at e
      exact numericColumn_readable e s hs
    · rw [hc] at e; cases e

/-- **C113** (which files). A file is accepted exactly if it can be read; for every other file (no data, a row shorter than the first, or a text that only looks like a number in a column of such texts)
the script stops with an exception and nothing is sent. -/
theorem C113_accepted (float : List Char → Option ℝ) (lines : List (List Char)) :
    ((∃ P, process float lines = .ok P) ↔ ∃ cols, Readable float (content lines) cols) ∧
      ((∃ cols, Readable float (content lines) cols) ∨ process float lines = .error .throw) := by
  have ok : (∃ cols, Readable float (content lines) cols) → ∃ P, process float lines = .ok P := fun ⟨cols, h⟩ => by
    obtain ⟨P, e, -⟩ := C113_features h
    exact ⟨P, e⟩
  have no : (∃ cols, Readable float (content lines) cols) ∨ process float lines = .error .throw := by
    by_cases h : ∃ cols, Readable float (content lines) cols
    · exact Or.inl h
    · refine Or.inr ?_
      unfold process
      cases hc : content lines with
      | nil => rfl
      | cons r rs =>
        dsimp only
        cases ht : table float (r :: rs) r.length with
        | ok t => exact absurd ⟨_, hc ▸ table_readable ht⟩ h
        | error e => rw [table_throws ht]; rfl
  refine ⟨⟨fun ⟨P, e⟩ => ?_, ok⟩, no⟩
  rcases no with h | h
  · exact h
  · rw [h] at e; cases e

/-- A file that is refused: the second number is not one. -/
example : process (fun s => if s = ['1'] then some 1 else none) ["1,a".toList, "1.x,a".toList] = .error .throw := by
  refine (C113_accepted _ _).2.resolve_left (fun ⟨cols, h⟩ => ?_)
  have hc : content ["1,a".toList, "1.x,a".toList] = [[['1'], ['a']], [['1', '.', 'x'], ['a']]] := by decide
  rw [hc] at h
  obtain ⟨r, rs, e, hl⟩ := h.some
  injection e with e1 e2
  have := h.value 0 (by rw [← hl, ← e1]; simp) (fun s hs => by
    rw [← isnum_iff]
    simp [colOf] at hs
    rcases hs with rfl | rfl <;> decide) ['1', '.', 'x'] (by simp [colOf])
  simp at this

end Experiment
end Nnet.NN
