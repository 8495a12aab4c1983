import Verif.NN.Experiment
import Verif.NN.PropsTestData
/-! # C113: what `run_experiment.py` sends to the program -/
namespace Nnet.NN
open Classical Finset

namespace Experiment
open TestData Spec

/-! ## Specification -/

/-- A text that starts like a number: a digit or a point, perhaps after a minus sign. -/
def NumberLike (s : List Char) : Prop := ∃ c t, (s = c :: t ∨ s = '-' :: c :: t) ∧ (c.isDigit = true ∨ c = '.')

/-- Field `i` of every row. -/
def colOf (rows : List (List (List Char))) (i : Nat) : List (List Char) := rows.map (fun r => r.getD i [])

/-- The number of different texts that appear in the column before `w` appears for the first time. -/
noncomputable def rank (col : List (List Char)) (w : List Char) : Nat := (col.take (col.idxOf w)).toFinset.card

/-- The number a field becomes: its value if the whole column looks like numbers, else its rank among the texts of the column. -/
noncomputable def cell (float : List Char → Option ℝ) (col : List (List Char)) (w : List Char) : ℝ :=
  if ∀ s ∈ col, NumberLike s then (float w).getD 0 else rank col w

/-- A file that can be read: at least one line of data, no row shorter than the first (which has `cols` fields), and in a column of texts that look like numbers every text is one. -/
structure Readable (float : List Char → Option ℝ) (rows : List (List (List Char))) (cols : Nat) : Prop where
  some : ∃ r rs, rows = r :: rs ∧ r.length = cols
  full : ∀ r ∈ rows, cols ≤ r.length
  value : ∀ i < cols, (∀ s ∈ colOf rows i, NumberLike s) → ∀ s ∈ colOf rows i, (float s).isSome

/-! ## Reading the columns -/

theorem isnum_iff (s : List Char) : isnum s = true ↔ NumberLike s := by
  unfold isnum NumberLike
  split
  · rename_i t
    cases t with
    | nil =>
      simp only [List.head?_nil, Option.any_none, Bool.false_eq_true, false_iff]
      rintro ⟨c, t, h | h, hc⟩
      · injection h with h1 h2
        subst h1
        rcases hc with hc | hc
        · exact absurd hc (by decide)
        · exact absurd hc (by decide)
      · injection h with _ h
        cases h
    | cons c t =>
      simp only [List.head?_cons, Option.any_some, Bool.or_eq_true, beq_iff_eq]
      constructor
      · exact fun h => ⟨c, t, Or.inr rfl, h⟩
      · rintro ⟨c', t', h | h, hc⟩
        · injection h with h1 h2
          subst h1
          rcases hc with hc | hc
          · exact absurd hc (by decide)
          · exact absurd hc (by decide)
        · injection h with _ h
          injection h with h1 h2
          rw [h1]
          exact hc
  · rename_i hne
    cases s with
    | nil =>
      simp only [List.head?_nil, Option.any_none, Bool.false_eq_true, false_iff]
      rintro ⟨c, t, h | h, hc⟩ <;> cases h
    | cons c t =>
      simp only [List.head?_cons, Option.any_some, Bool.or_eq_true, beq_iff_eq]
      constructor
      · exact fun h => ⟨c, t, Or.inl rfl, h⟩
      · rintro ⟨c', t', h | h, hc⟩
        · injection h with h1 h2
          rw [h1]
          exact hc
        · injection h with h1 h2
          exact absurd (by rw [h1]) (hne t)

theorem isallnum_iff : ∀ (col : List (List Char)), isallnum col = true ↔ ∀ s ∈ col, NumberLike s
  | [] => by simp [isallnum]
  | s :: ss => by
    unfold isallnum
    rw [List.forall_mem_cons, ← isnum_iff, ← isallnum_iff ss]
    cases isnum s <;> simp

theorem column_ok {rows : List (List (List Char))} {i : Nat} (h : ∀ r ∈ rows, i < r.length) : column rows i = .ok (colOf rows i) := by
  unfold column colOf
  induction rows with
  | nil => rfl
  | cons r rs ih =>
    rw [List.mapM_cons, ih (fun r' hr => h r' (List.mem_cons_of_mem _ hr))]
    have := h r List.mem_cons_self
    rw [List.getElem?_eq_getElem this]
    simp [List.getD, List.getElem?_eq_getElem this]

theorem numericColumn_ok {float : List Char → Option ℝ} {col : List (List Char)} {i : Nat} (t : Table) (h : ∀ s ∈ col, (float s).isSome) :
    numericColumn float col i t = .ok (fun a b => if a < col.length ∧ b = i then (float (col.getD a [])).getD 0 else t a b) := by
  unfold numericColumn
  rw [loop_eq (fun j => (fun a b => if a < j ∧ b = i then (float (col.getD a [])).getD 0 else t a b : Table)) (by funext a b; simp) (fun j hj => ?_)]
  have hm : col.getD j [] ∈ col := by simp [List.getD, hj]
  obtain ⟨v, hv⟩ := Option.isSome_iff_exists.1 (h _ hm)
  rw [hv]
  show Except.ok _ = _
  congr 1
  funext a b
  unfold Table.put
  by_cases hb : b = i
  · subst hb
    by_cases ha : a = j
    · subst ha
      rw [if_pos ⟨rfl, rfl⟩, if_pos ⟨Nat.lt_succ_self _, rfl⟩, hv]
      rfl
    · have : a < j + 1 ↔ a < j := by omega
      simp [ha, this]
  · simp [hb]

theorem rank_stable {col : List (List Char)} {w : List Char} {j : Nat} (h : w ∈ col.take j) : col.idxOf w < j := by
  have h1 : (col.take j).idxOf w < (col.take j).length := List.idxOf_lt_length_iff.2 h
  have h2 : col.idxOf w = (col.take j).idxOf w := by
    conv_lhs => rw [← List.take_append_drop j col]
    rw [List.idxOf_append_of_mem h]
  rw [h2]
  rw [List.length_take] at h1
  omega

theorem notMem_take {col : List (List Char)} {w : List Char} {j : Nat} (h : j ≤ col.idxOf w) : w ∉ col.take j := fun hm => by
  have := rank_stable hm
  omega

theorem idxOf_new {col : List (List Char)} {j : Nat} (hj : j < col.length) (h : col.getD j [] ∉ col.take j) : col.idxOf (col.getD j []) = j := by
  have hg : col.getD j [] = col[j] := by simp [List.getD, hj]
  have e : col = col.take j ++ col[j] :: col.drop (j + 1) := by
    rw [← List.drop_eq_getElem_cons hj, List.take_append_drop]
  rw [hg] at h ⊢
  have hl : (List.take j col).length = j := by rw [List.length_take]; omega
  have : List.idxOf col[j] (List.take j col ++ col[j] :: List.drop (j + 1) col) = j := by
    rw [List.idxOf_append_of_notMem h, List.idxOf_cons_self, hl, Nat.add_zero]
  rw [← e] at this
  exact this

theorem take_succ_toFinset {col : List (List Char)} {j : Nat} (hj : j < col.length) : (col.take (j + 1)).toFinset = insert (col.getD j []) (col.take j).toFinset := by
  have hg : col.getD j [] = col[j] := by simp [List.getD, hj]
  rw [hg, List.take_succ_eq_append_getElem hj]
  ext a
  rw [List.mem_toFinset, List.mem_append, Finset.mem_insert, List.mem_toFinset, List.mem_singleton, or_comm]

theorem namedColumn_ok {col : List (List Char)} {i : Nat} (t : Table) :
    namedColumn col i t = .ok (fun a b => if a < col.length ∧ b = i then (rank col (col.getD a []) : ℝ) else t a b) := by
  unfold namedColumn
  rw [loop_eq (fun j => ((fun w => if w ∈ col.take j then some (rank col w) else none), (col.take j).toFinset.card,
    (fun a b => if a < j ∧ b = i then (rank col (col.getD a []) : ℝ) else t a b : Table))) (by
      refine Prod.ext ?_ (Prod.ext ?_ ?_)
      · funext w; simp
      · simp
      · funext a b; simp) (fun j hj => ?_), ok_bind]
  dsimp only
  have ht : ∀ v : Nat, v = rank col (col.getD j []) → Table.put (fun a b => if a < j ∧ b = i then (rank col (col.getD a []) : ℝ) else t a b) j i (v : ℝ) =
      fun a b => if a < j + 1 ∧ b = i then (rank col (col.getD a []) : ℝ) else t a b := by
    intro v hv
    funext a b
    unfold Table.put
    by_cases hb : b = i
    · subst hb
      by_cases ha : a = j
      · subst ha
        simp [hv]
      · have : a < j + 1 ↔ a < j := by omega
        simp [ha, this]
    · simp [hb]
  by_cases hm : col.getD j [] ∈ col.take j
  · rw [if_neg (by rw [if_pos hm]; simp)]
    dsimp only
    rw [if_pos hm]
    dsimp only
    rw [ht _ rfl]
    congr 1
    have e : (col.take (j + 1)).toFinset = (col.take j).toFinset := by
      rw [take_succ_toFinset hj, Finset.insert_eq_self.2 (List.mem_toFinset.2 hm)]
    rw [e]
    refine Prod.ext ?_ rfl
    funext w
    have : w ∈ col.take (j + 1) ↔ w ∈ col.take j := by rw [← List.mem_toFinset, e, List.mem_toFinset]
    simp only [this]
  · rw [if_pos (by rw [if_neg hm])]
    dsimp only
    rw [Function.update_self]
    dsimp only
    have hr : rank col (col.getD j []) = (col.take j).toFinset.card := by
      unfold rank
      rw [idxOf_new hj hm]
    rw [ht _ hr.symm]
    congr 1
    have e := take_succ_toFinset hj
    refine Prod.ext ?_ (Prod.ext ?_ rfl)
    · funext w
      have : w ∈ col.take (j + 1) ↔ w = col.getD j [] ∨ w ∈ col.take j := by rw [← List.mem_toFinset, e, Finset.mem_insert, List.mem_toFinset]
      by_cases hw : w = col.getD j []
      · subst hw
        simp only [Function.update_self]
        rw [if_pos (this.2 (Or.inl rfl)), hr]
      · simp only [Function.update_of_ne hw]
        simp only [this, hw, false_or]
    · show _ + 1 = _
      rw [e, Finset.card_insert_of_notMem (by rwa [List.mem_toFinset])]

theorem colOf_length (rows : List (List (List Char))) (i : Nat) : (colOf rows i).length = rows.length := by simp [colOf]

theorem table_ok {float : List Char → Option ℝ} {rows : List (List (List Char))} {cols : Nat} (h : Readable float rows cols) :
    ∃ t, table float rows cols = .ok t ∧ ∀ a < rows.length, ∀ b < cols, t a b = cell float (colOf rows b) ((colOf rows b).getD a []) := by
  unfold table
  refine loop_inv (σ := Table) (fun i (t : Table) => ∀ a < rows.length, ∀ b < i, t a b = cell float (colOf rows b) ((colOf rows b).getD a [])) (fun a _ b hb => by omega) (fun i t hi ht => ?_)
  · show ∃ t', (do
      let col ← column rows i
      if isallnum col then numericColumn float col i t else namedColumn col i t) = Except.ok t' ∧ _
    rw [column_ok (fun r hr => by have := h.full r hr; omega), ok_bind]
    have key : ∀ (g : Nat → ℝ), (∀ a < rows.length, g a = cell float (colOf rows i) ((colOf rows i).getD a [])) → ∀ a < rows.length, ∀ b < i + 1,
        (if a < (colOf rows i).length ∧ b = i then g a else t a b) = cell float (colOf rows b) ((colOf rows b).getD a []) := by
      intro g hg a ha b hb
      by_cases hbi : b = i
      · subst hbi
        rw [if_pos ⟨by rw [colOf_length]; exact ha, rfl⟩]
        exact hg a ha
      · rw [if_neg (fun hh => hbi hh.2)]
        exact ht a ha b (by omega)
    by_cases hn : isallnum (colOf rows i) = true
    · rw [if_pos hn]
      have hn' := (isallnum_iff _).1 hn
      refine ⟨_, numericColumn_ok t (h.value i hi hn'), key _ (fun a ha => ?_)⟩
      unfold cell
      rw [if_pos hn']
    · rw [if_neg hn]
      refine ⟨_, namedColumn_ok t, key _ (fun a ha => ?_)⟩
      unfold cell
      rw [if_neg (fun hh => hn ((isallnum_iff _).2 hh))]

/-! ## Counting and replacing labels -/

theorem geto_ok (t : Table) (m last : Nat) : geto t m last = .ok ((range m).image (fun i => t i last)).card := by
  unfold geto
  obtain ⟨r, e, h1, h2⟩ := loop_inv (n := m) (s := ([] : List ℝ)) (body := fun i (record : List ℝ) => if ¬ t i last ∈ record then Except.ok (t i last :: record) else Except.ok record)
    (fun i r => r.Nodup ∧ r.toFinset = (range i).image (fun i => t i last)) ⟨List.nodup_nil, by simp⟩ (fun i r hi h => by
      by_cases hm : t i last ∈ r
      · refine ⟨r, if_neg (by simpa using hm), h.1, ?_⟩
        rw [range_add_one, image_insert, ← h.2, Finset.insert_eq_self.2 (List.mem_toFinset.2 hm)]
      · refine ⟨_, if_pos hm, List.nodup_cons.2 ⟨hm, h.1⟩, ?_⟩
        rw [range_add_one, image_insert, ← h.2, List.toFinset_cons])
  rw [e, ok_bind, ← h2, List.toFinset_card_of_nodup h1]

theorem maxLabel_ok (t : Table) (m last : Nat) : ∃ v, maxLabel t m last = .ok v ∧ (∀ i < m, t i last ≤ v) ∧ 0 ≤ v ∧ (v = 0 ∨ ∃ i < m, t i last = v) := by
  unfold maxLabel
  obtain ⟨v, e, h1, h2, h3⟩ := loop_inv (n := m) (s := (0 : ℝ)) (body := fun i (max_val : ℝ) => if t i last > max_val then Except.ok (t i last) else Except.ok max_val)
    (fun k v => (∀ i < k, t i last ≤ v) ∧ 0 ≤ v ∧ (v = 0 ∨ ∃ i < k, t i last = v)) ⟨fun i hi => by omega, le_refl _, Or.inl rfl⟩ (fun k v hk h => by
      obtain ⟨h1, h2, h3⟩ := h
      by_cases hm : t k last > v
      · refine ⟨_, if_pos hm, fun i hi => ?_, by linarith, Or.inr ⟨k, by omega, rfl⟩⟩
        rcases Nat.lt_succ_iff_lt_or_eq.1 hi with hi | rfl
        · linarith [h1 i hi]
        · exact le_refl _
      · refine ⟨_, if_neg hm, fun i hi => ?_, h2, h3.imp id (fun ⟨i, hi, e⟩ => ⟨i, by omega, e⟩)⟩
        rcases Nat.lt_succ_iff_lt_or_eq.1 hi with hi | rfl
        · exact h1 i hi
        · linarith)
  exact ⟨v, e, h1, h2, h3⟩

theorem replace_ok (t : Table) (m index : Nat) (old new : ℝ) :
    replace t m index old new = .ok (fun a b => if a < m ∧ b = index ∧ t a b = old then new else t a b) := by
  unfold replace
  rw [loop_eq (fun k => (fun a b => if a < k ∧ b = index ∧ t a b = old then new else t a b : Table)) (by funext a b; simp) (fun i hi => ?_)]
  by_cases h : t i index = old
  · rw [if_pos (by dsimp only; rw [if_neg (by simp)]; exact h)]
    congr 1
    funext a b
    unfold Table.put
    by_cases hab : a = i ∧ b = index
    · obtain ⟨rfl, rfl⟩ := hab
      simp [h]
    · rw [if_neg hab]
      have : (a < i + 1 ∧ b = index ∧ t a b = old) ↔ (a < i ∧ b = index ∧ t a b = old) := by
        constructor
        · rintro ⟨h1, h2, h3⟩
          exact ⟨by have : a ≠ i := fun e => hab ⟨e, h2⟩; omega, h2, h3⟩
        · rintro ⟨h1, h2, h3⟩
          exact ⟨by omega, h2, h3⟩
      simp only [this]
  · rw [if_neg (by dsimp only; rw [if_neg (by simp)]; exact h)]
    congr 1
    funext a b
    have : (a < i + 1 ∧ b = index ∧ t a b = old) ↔ (a < i ∧ b = index ∧ t a b = old) := by
      constructor
      · rintro ⟨h1, h2, h3⟩
        exact ⟨by have : a ≠ i := fun e => h (by rw [← e, ← h2]; exact h3); omega, h2, h3⟩
      · rintro ⟨h1, h2, h3⟩
        exact ⟨by omega, h2, h3⟩
    simp only [this]

theorem process_ok {float : List Char → Option ℝ} {lines : List (List Char)} {cols : Nat} (h : Readable float (content lines) cols) :
    ∃ P t top, process float lines = .ok P ∧ P.n = cols - 1 ∧ P.m = (content lines).length ∧
      (∀ a < P.m, ∀ b < cols, t a b = cell float (colOf (content lines) b) ((colOf (content lines) b).getD a [])) ∧
      (∀ a < P.m, t a P.n ≤ top) ∧ 0 ≤ top ∧ (top = 0 ∨ ∃ a < P.m, t a P.n = top) ∧
      (P.data = if toInt top = (((range P.m).image (fun a => t a P.n)).card : Int) then (fun a b => if a < P.m ∧ b = P.n ∧ t a b = top then 0 else t a b) else t) ∧
      P.o = ((range P.m).image (fun a => P.data a P.n)).card := by
  obtain ⟨t, e, ht⟩ := table_ok h
  obtain ⟨r, rs, hr, hl⟩ := h.some
  obtain ⟨top, e1, m1, m2, m3⟩ := maxLabel_ok t (content lines).length (cols - 1)
  by_cases hc : toInt top = (((range (content lines).length).image (fun a => t a (cols - 1))).card : Int)
  · refine ⟨⟨cols - 1, ((range (content lines).length).image (fun c => (fun a b => if a < (content lines).length ∧ b = cols - 1 ∧ t a b = top then 0 else t a b : Table) c (cols - 1))).card, (content lines).length, fun a b => if a < (content lines).length ∧ b = cols - 1 ∧ t a b = top then 0 else t a b⟩, t, top, ?_, rfl, rfl, ht, m1, m2, m3, ?_, rfl⟩
    · unfold process
      rw [hr] at e e1 hc ⊢
      dsimp only
      rw [hl, e, ok_bind, e1, ok_bind, geto_ok, ok_bind, if_pos hc, ok_bind, replace_ok, ok_bind, geto_ok, ok_bind]
    · rw [if_pos hc]
  · refine ⟨⟨cols - 1, ((range (content lines).length).image (fun a => t a (cols - 1))).card, (content lines).length, t⟩, t, top, ?_, rfl, rfl, ht, m1, m2, m3, ?_, rfl⟩
    · unfold process
      rw [hr] at e e1 hc ⊢
      dsimp only
      rw [hl, e, ok_bind, e1, ok_bind, geto_ok, ok_bind, if_neg hc, ok_bind, geto_ok, ok_bind]
    · rw [if_neg hc]

/-! ## Ranks -/

theorem rank_lt {col : List (List Char)} {w w' : List Char} (hw : w ∈ col) (hw' : w' ∈ col) (h : col.idxOf w < col.idxOf w') : rank col w < rank col w' := by
  unfold rank
  refine Finset.card_lt_card ((Finset.ssubset_iff_of_subset ?_).2 ⟨w, ?_, ?_⟩)
  · intro a ha
    rw [List.mem_toFinset] at ha ⊢
    exact List.mem_of_mem_take (i := col.idxOf w) (by rwa [List.take_take, min_eq_left (le_of_lt h)])
  · rw [List.mem_toFinset]
    have h1 := List.idxOf_lt_length_iff.2 hw
    have : col[col.idxOf w] ∈ col.take (col.idxOf w') := by
      rw [List.mem_take_iff_getElem]
      exact ⟨col.idxOf w, by simp; omega, rfl⟩
    rwa [List.getElem_idxOf h1] at this
  · rw [List.mem_toFinset]
    exact notMem_take (le_refl _)

theorem rank_inj {col : List (List Char)} {w w' : List Char} (hw : w ∈ col) (hw' : w' ∈ col) (h : rank col w = rank col w') : w = w' := by
  rcases lt_trichotomy (col.idxOf w) (col.idxOf w') with h' | h' | h'
  · have := rank_lt hw hw' h'
    omega
  · exact (List.idxOf_inj hw).1 h'
  · have := rank_lt hw' hw h'
    omega

theorem rank_bound {col : List (List Char)} {w : List Char} (hw : w ∈ col) : rank col w < col.toFinset.card := by
  unfold rank
  refine Finset.card_lt_card ((Finset.ssubset_iff_of_subset ?_).2 ⟨w, List.mem_toFinset.2 hw, ?_⟩)
  · intro a ha
    rw [List.mem_toFinset] at ha ⊢
    exact List.mem_of_mem_take ha
  · rw [List.mem_toFinset]
    exact notMem_take (le_refl _)

theorem rank_image (col : List (List Char)) : col.toFinset.image (rank col) = range col.toFinset.card := by
  refine Finset.eq_of_subset_of_card_le ?_ ?_
  · intro k hk
    obtain ⟨w, hw, rfl⟩ := Finset.mem_image.1 hk
    exact Finset.mem_range.2 (rank_bound (List.mem_toFinset.1 hw))
  · rw [Finset.card_range, Finset.card_image_of_injOn]
    intro w hw w' hw' e
    exact rank_inj (List.mem_toFinset.1 hw) (List.mem_toFinset.1 hw') e

/-! ## C113 -/

/-- The class text of row `a`: its last field, counted by the first row. -/
def classText (lines : List (List Char)) (cols a : Nat) : List Char := (colOf (content lines) (cols - 1)).getD a []

/-- The class texts of all rows. -/
def classTexts (lines : List (List Char)) (cols : Nat) : List (List Char) := colOf (content lines) (cols - 1)

theorem classText_mem {lines : List (List Char)} {cols a : Nat} (h : a < (content lines).length) : classText lines cols a ∈ classTexts lines cols := by
  unfold classText classTexts
  have : a < (colOf (content lines) (cols - 1)).length := by rwa [colOf_length]
  simp [List.getD, this]

theorem mem_classTexts {lines : List (List Char)} {cols : Nat} {w : List Char} (h : w ∈ classTexts lines cols) : ∃ a < (content lines).length, classText lines cols a = w := by
  obtain ⟨a, ha, e⟩ := List.mem_iff_getElem.1 h
  refine ⟨a, by unfold classTexts at ha; rwa [colOf_length] at ha, ?_⟩
  unfold classText
  unfold classTexts at ha e
  simp [List.getD, ha, e]

/-- **C113** (features). Whatever the classes are, the file is read, every feature of every sample is sent as its value (in a column that looks like numbers) or as the rank of its text, and the numbers
of features and samples are those of the file. -/
theorem C113_features {float : List Char → Option ℝ} {lines : List (List Char)} {cols : Nat} (h : Readable float (content lines) cols) :
    ∃ P, process float lines = .ok P ∧ P.n = cols - 1 ∧ P.m = (content lines).length ∧
      ∀ a < P.m, ∀ b < P.n, P.data a b = cell float (colOf (content lines) b) ((colOf (content lines) b).getD a []) := by
  obtain ⟨P, t, top, e, hn, hm, ht, -, -, -, hd, -⟩ := process_ok h
  refine ⟨P, e, hn, hm, fun a ha b hb => ?_⟩
  rw [← ht a ha b (by omega), hd]
  split
  · dsimp only
    rw [if_neg (fun hh => by have := hh.2.1; omega)]
  · rfl

theorem cols_pos {float : List Char → Option ℝ} {lines : List (List Char)} {cols : Nat} (h : Readable float (content lines) cols) : 0 < cols := by
  obtain ⟨r, rs, hr, hl⟩ := h.some
  have hm : r ∈ content lines := by rw [hr]; exact List.mem_cons_self
  unfold content at hm
  obtain ⟨l, -, e⟩ := List.mem_map.1 hm
  rw [← hl, ← e]
  unfold fields
  exact List.length_pos_of_ne_nil (List.splitOn_ne_nil _ _)

/-- **C113** (classes with names). If some class text does not look like a number, every sample gets the rank of its class text: the labels sent are the numbers below the number `o` of classes, each of
them is used, and two samples have the same label exactly if they have the same class text. -/
theorem C113_named {float : List Char → Option ℝ} {lines : List (List Char)} {cols : Nat} (h : Readable float (content lines) cols)
    (hc : ∃ s ∈ classTexts lines cols, ¬ NumberLike s) :
    ∃ P, process float lines = .ok P ∧ P.n = cols - 1 ∧ P.m = (content lines).length ∧ P.o = (classTexts lines cols).toFinset.card ∧
      ∃ c : Nat → Nat, (∀ a < P.m, P.data a P.n = c a ∧ c a = rank (classTexts lines cols) (classText lines cols a) ∧ c a < P.o) ∧ (∀ k < P.o, ∃ a < P.m, c a = k) ∧
        ∀ a < P.m, ∀ b < P.m, c a = c b ↔ classText lines cols a = classText lines cols b := by
  obtain ⟨P, t, top, e, hn, hm, ht, m1, m2, m3, hd, ho⟩ := process_ok h
  have hcols := cols_pos h
  have hl : ∀ a < P.m, t a P.n = (rank (classTexts lines cols) (classText lines cols a) : ℝ) := by
    intro a ha
    rw [ht a ha P.n (by omega), hn]
    unfold cell
    rw [if_neg (by
      intro hh
      obtain ⟨s, hs, hs'⟩ := hc
      exact hs' (hh s hs))]
    rfl
  have himg : (range P.m).image (fun a => t a P.n) = ((classTexts lines cols).toFinset.image (rank (classTexts lines cols))).image (fun k : Nat => (k : ℝ)) := by
    ext v
    simp only [Finset.mem_image, Finset.mem_range, List.mem_toFinset]
    constructor
    · rintro ⟨a, ha, rfl⟩
      exact ⟨_, ⟨_, classText_mem (hm ▸ ha), rfl⟩, (hl a ha).symm⟩
    · rintro ⟨_, ⟨w, hw, rfl⟩, rfl⟩
      obtain ⟨a, ha, rfl⟩ := mem_classTexts hw
      exact ⟨a, hm ▸ ha, hl a (hm ▸ ha)⟩
  have hcard : ((range P.m).image (fun a => t a P.n)).card = (classTexts lines cols).toFinset.card := by
    rw [himg, Finset.card_image_of_injective _ Nat.cast_injective, rank_image, Finset.card_range]
  have hpos : 0 < P.m := by
    rw [hm]
    obtain ⟨r, rs, hr, -⟩ := h.some
    rw [hr]
    exact Nat.succ_pos _
  have htop : ∃ k : Nat, top = k ∧ k < (classTexts lines cols).toFinset.card := by
    rcases m3 with rfl | ⟨a, ha, rfl⟩
    · exact ⟨0, by simp, lt_of_le_of_lt (Nat.zero_le _) (rank_bound (classText_mem (hm ▸ hpos)))⟩
    · exact ⟨_, hl a ha, rank_bound (classText_mem (hm ▸ ha))⟩
  obtain ⟨k, hk, hk'⟩ := htop
  rw [hcard, hk, toInt_nat, if_neg (by omega)] at hd
  rw [hd, hcard] at ho
  refine ⟨P, e, hn, hm, ho, fun a => rank (classTexts lines cols) (classText lines cols a), fun a ha => ⟨by rw [hd]; exact hl a ha, rfl, ?_⟩, fun k hk => ?_, fun a ha b hb => ⟨fun hh => ?_, fun hh => by dsimp only; rw [hh]⟩⟩
  · rw [ho]
    exact rank_bound (classText_mem (hm ▸ ha))
  · have : k ∈ (classTexts lines cols).toFinset.image (rank (classTexts lines cols)) := by
      rw [rank_image, Finset.mem_range, ← ho]
      exact hk
    obtain ⟨w, hw, rfl⟩ := Finset.mem_image.1 this
    obtain ⟨a, ha, rfl⟩ := mem_classTexts (List.mem_toFinset.1 hw)
    exact ⟨a, hm ▸ ha, rfl⟩
  · exact rank_inj (classText_mem (hm ▸ ha)) (classText_mem (hm ▸ hb)) hh

/-- What `process` makes of classes that are natural numbers: the largest class becomes 0 if it equals the number of different classes. -/
theorem process_numbers {float : List Char → Option ℝ} {lines : List (List Char)} {cols : Nat} {v : Nat → Nat} (h : Readable float (content lines) cols)
    (hc : ∀ s ∈ classTexts lines cols, NumberLike s) (hv : ∀ a < (content lines).length, float (classText lines cols a) = some (v a : ℝ)) :
    ∃ (P : Prepared) (M : Nat), process float lines = .ok P ∧ P.n = cols - 1 ∧ P.m = (content lines).length ∧ (∀ a < P.m, v a ≤ M) ∧ (∃ a < P.m, v a = M) ∧
      (∀ a < P.m, P.data a P.n = if M = ((range P.m).image v).card ∧ v a = M then 0 else (v a : ℝ)) ∧
      P.o = ((range P.m).image (fun a => if M = ((range P.m).image v).card ∧ v a = M then 0 else v a)).card := by
  obtain ⟨P, t, top, e, hn, hm, ht, m1, m2, m3, hd, ho⟩ := process_ok h
  have hcols := cols_pos h
  have hl : ∀ a < P.m, t a P.n = (v a : ℝ) := by
    intro a ha
    rw [ht a ha P.n (by omega), hn]
    unfold cell
    rw [if_pos (show ∀ s ∈ colOf (content lines) (cols - 1), NumberLike s from hc), show (colOf (content lines) (cols - 1)).getD a [] = classText lines cols a from rfl, hv a (hm ▸ ha)]
    rfl
  have hcard : ((range P.m).image (fun a => t a P.n)).card = ((range P.m).image v).card := by
    rw [← Finset.card_image_of_injective ((range P.m).image v) (Nat.cast_injective (R := ℝ)), Finset.image_image]
    congr 1
    exact Finset.image_congr (fun a ha => hl a (Finset.mem_range.1 ha))
  have hpos : 0 < P.m := by
    rw [hm]
    obtain ⟨r, rs, hr, -⟩ := h.some
    rw [hr]
    exact Nat.succ_pos _
  have htop : ∃ M : Nat, top = M ∧ ∃ a < P.m, v a = M := by
    rcases m3 with h0 | ⟨a, ha, rfl⟩
    · refine ⟨0, by simp [h0], 0, hpos, ?_⟩
      have := m1 0 hpos
      rw [hl 0 hpos, h0] at this
      have : v 0 ≤ 0 := by exact_mod_cast this
      omega
    · exact ⟨v a, hl a ha, a, ha, rfl⟩
  obtain ⟨M, hM, hM'⟩ := htop
  have hdat : ∀ a < P.m, P.data a P.n = if M = ((range P.m).image v).card ∧ v a = M then 0 else (v a : ℝ) := by
    intro a ha
    rw [hd, hcard, hM, toInt_nat]
    by_cases hk : M = ((range P.m).image v).card
    · rw [if_pos (by exact_mod_cast hk)]
      rw [hl a ha]
      by_cases hva : v a = M
      · rw [if_pos ⟨ha, rfl, by rw [hva]⟩, if_pos ⟨hk, hva⟩]
      · rw [if_neg (fun hh => hva (by exact_mod_cast hh.2.2)), if_neg (fun hh => hva hh.2)]
    · rw [if_neg (by exact_mod_cast hk), if_neg (fun hh => hk hh.1)]
      exact hl a ha
  refine ⟨P, M, e, hn, hm, fun a ha => ?_, hM', hdat, ?_⟩
  · have := m1 a ha
    rw [hl a ha, hM] at this
    exact_mod_cast this
  · rw [ho, ← Finset.card_image_of_injective ((range P.m).image (fun a => if M = ((range P.m).image v).card ∧ v a = M then 0 else v a)) (Nat.cast_injective (R := ℝ)), Finset.image_image]
    congr 1
    refine Finset.image_congr (fun a ha => ?_)
    show P.data a P.n = _
    rw [hdat a (Finset.mem_range.1 ha)]
    simp only [Function.comp]
    split <;> simp

/-- **C113** (numbered classes). If the classes are the numbers 0 to k-1, or 1 to k, then `o` is k and the label sent is the class modulo k, so different classes keep different labels below `o`. -/
theorem C113_numbered_partial {float : List Char → Option ℝ} {lines : List (List Char)} {cols k : Nat} {v : Nat → Nat} (h : Readable float (content lines) cols)
    (hc : ∀ s ∈ classTexts lines cols, NumberLike s) (hv : ∀ a < (content lines).length, float (classText lines cols a) = some (v a : ℝ))
    (hk : (range (content lines).length).image v = range k ∨ (range (content lines).length).image v = Finset.Icc 1 k) :
    ∃ P, process float lines = .ok P ∧ P.n = cols - 1 ∧ P.m = (content lines).length ∧ P.o = k ∧ ∀ a < P.m, P.data a P.n = (v a % k : Nat) := by
  obtain ⟨P, M, e, hn, hm, h1, ⟨b, hb, h2⟩, hd, ho⟩ := process_numbers h hc hv
  rw [← hm] at hk
  have mem : ∀ a < P.m, v a ∈ (range P.m).image v := fun a ha => Finset.mem_image_of_mem v (Finset.mem_range.2 ha)
  have card : ((range P.m).image v).card = k := by rcases hk with hk | hk <;> rw [hk] <;> simp
  rw [card] at hd ho
  have key : ∀ a < P.m, (if M = k ∧ v a = M then 0 else v a) = v a % k := by
    intro a ha
    have ma := mem a ha
    rcases hk with hk | hk
    · rw [hk, Finset.mem_range] at ma
      have mb := mem b hb
      rw [hk, Finset.mem_range] at mb
      rw [if_neg (by omega), Nat.mod_eq_of_lt ma]
    · rw [hk, Finset.mem_Icc] at ma
      have mb := mem b hb
      rw [hk, Finset.mem_Icc] at mb
      have : k ∈ (range P.m).image v := by rw [hk, Finset.mem_Icc]; omega
      obtain ⟨c, hc', hce⟩ := Finset.mem_image.1 this
      have := h1 c (Finset.mem_range.1 hc')
      have hMk : M = k := by omega
      by_cases hva : v a = M
      · rw [if_pos ⟨hMk, hva⟩, hva, hMk, Nat.mod_self]
      · rw [if_neg (fun hh => hva hh.2), Nat.mod_eq_of_lt (by omega)]
  refine ⟨P, e, hn, hm, ?_, fun a ha => ?_⟩
  · rw [ho]
    have e1 : (range P.m).image (fun a => if M = k ∧ v a = M then 0 else v a) = ((range P.m).image v).image (fun u => u % k) := by
      rw [Finset.image_image]
      exact Finset.image_congr (fun a ha => key a (Finset.mem_range.1 ha))
    rw [e1]
    refine (Finset.card_image_of_injOn (f := fun u => u % k) (s := (range P.m).image v) ?_).trans card
    intro u hu w hw hh
    dsimp only at hh
    rcases hk with hk | hk
    · rw [hk, Finset.coe_range, Set.mem_Iio] at hu hw
      rwa [Nat.mod_eq_of_lt hu, Nat.mod_eq_of_lt hw] at hh
    · rw [hk, Finset.coe_Icc, Set.mem_Icc] at hu hw
      rcases Nat.lt_or_ge u k with h1 | h1 <;> rcases Nat.lt_or_ge w k with h2 | h2
      · rwa [Nat.mod_eq_of_lt h1, Nat.mod_eq_of_lt h2] at hh
      · have : w = k := by omega
        rw [Nat.mod_eq_of_lt h1, this, Nat.mod_self] at hh
        omega
      · have : u = k := by omega
        rw [Nat.mod_eq_of_lt h2, this, Nat.mod_self] at hh
        omega
      · omega
  · rw [hd a ha, ← key a ha]
    split <;> simp

/-- **C113** (merged classes). If class 0 occurs and the largest class equals the number of different classes, the samples of the largest class are sent with label 0: two classes become one. -/
theorem C113_merged {float : List Char → Option ℝ} {lines : List (List Char)} {cols M a b : Nat} {v : Nat → Nat} (h : Readable float (content lines) cols)
    (hc : ∀ s ∈ classTexts lines cols, NumberLike s) (hv : ∀ a < (content lines).length, float (classText lines cols a) = some (v a : ℝ))
    (ha : a < (content lines).length) (h0 : v a = 0) (hb : b < (content lines).length) (hM : v b = M) (hmax : ∀ c < (content lines).length, v c ≤ M)
    (hk : ((range (content lines).length).image v).card = M) :
    ∃ P, process float lines = .ok P ∧ P.data a P.n = 0 ∧ P.data b P.n = 0 ∧ P.o + 1 = M ∧ v a ≠ v b := by
  obtain ⟨P, M', e, hn, hm, h1, ⟨c, hc', h2⟩, hd, ho⟩ := process_numbers h hc hv
  rw [hm] at hd ho h1 hc'
  have hMM : M' = M := le_antisymm (h2 ▸ hmax c hc') (hM ▸ h1 b hb)
  subst hMM
  have hpos : 0 < M' := by
    rw [← hk]
    exact Finset.card_pos.2 ⟨v a, Finset.mem_image_of_mem v (Finset.mem_range.2 ha)⟩
  refine ⟨P, e, ?_, ?_, ?_, by omega⟩
  · rw [hd a ha, if_neg (by omega), h0]
    simp
  · rw [hd b hb, if_pos ⟨hk.symm, hM⟩]
  · have : (range (content lines).length).image (fun a => if M' = ((range (content lines).length).image v).card ∧ v a = M' then 0 else v a) = ((range (content lines).length).image v).erase M' := by
      ext u
      simp only [Finset.mem_image, Finset.mem_range, Finset.mem_erase]
      constructor
      · rintro ⟨c, hc, rfl⟩
        by_cases hvc : v c = M'
        · rw [if_pos ⟨hk.symm, hvc⟩]
          exact ⟨by omega, a, ha, h0⟩
        · rw [if_neg (fun hh => hvc hh.2)]
          exact ⟨hvc, c, hc, rfl⟩
      · rintro ⟨hu, c, hc, rfl⟩
        exact ⟨c, hc, if_neg (fun hh => hu hh.2)⟩
    rw [ho, this, Finset.card_erase_add_one (Finset.mem_image.2 ⟨b, Finset.mem_range.2 hb, hM⟩), hk]

/-- **C113** (gaps). If the largest class is greater than the number of different classes, the program that receives the data stops with an exception. -/
theorem C113_gap {junk : Nat → Nat → ℝ} {rnd : Nat → Nat} {float : List Char → Option ℝ} {lines : List (List Char)} {cols b : Nat} {v : Nat → Nat} (h : Readable float (content lines) cols)
    (hc : ∀ s ∈ classTexts lines cols, NumberLike s) (hv : ∀ a < (content lines).length, float (classText lines cols a) = some (v a : ℝ))
    (hb : b < (content lines).length) (hk : ((range (content lines).length).image v).card < v b) :
    ∃ P, process float lines = .ok P ∧ send junk rnd P = .error .throw := by
  obtain ⟨P, M, e, hn, hm, h1, -, hd, ho⟩ := process_numbers h hc hv
  rw [← hm] at hb hk
  have hM := h1 b hb
  have hne : ¬ M = ((range P.m).image v).card := by omega
  refine ⟨P, e, C104_bad_label hb (Or.inr ?_)⟩
  rw [hd b hb, if_neg (fun hh => hne hh.1), toInt_nat, ho]
  have : (range P.m).image (fun a => if M = ((range P.m).image v).card ∧ v a = M then 0 else v a) = (range P.m).image v :=
    Finset.image_congr (fun a _ => if_neg (fun hh => hne hh.1))
  rw [this]
  exact_mod_cast hk.le

/-- **C113** (all cases). For classes that are natural numbers there is no fourth case: they are 0 to k-1 or 1 to k, or the largest class equals their number and class 0 occurs, or the largest is
greater than their number. -/
theorem C113_cases (m : Nat) (v : Nat → Nat) (hm : 0 < m) : (∃ k, (range m).image v = range k) ∨ (∃ k, (range m).image v = Finset.Icc 1 k) ∨
    (∃ a < m, ∃ b < m, v a = 0 ∧ (∀ c < m, v c ≤ v b) ∧ ((range m).image v).card = v b) ∨ ∃ b < m, ((range m).image v).card < v b := by
  obtain ⟨b, hb, hmax⟩ := Finset.exists_max_image (range m) v ⟨0, Finset.mem_range.2 hm⟩
  rw [Finset.mem_range] at hb
  have hmax' : ∀ c < m, v c ≤ v b := fun c hc => hmax c (Finset.mem_range.2 hc)
  rcases lt_trichotomy (v b) ((range m).image v).card with h | h | h
  · refine Or.inl ⟨((range m).image v).card, Finset.eq_of_subset_of_card_le ?_ (by simp)⟩
    intro u hu
    obtain ⟨c, hc, rfl⟩ := Finset.mem_image.1 hu
    exact Finset.mem_range.2 (lt_of_le_of_lt (hmax c hc) h)
  · by_cases h0 : ∃ a < m, v a = 0
    · obtain ⟨a, ha, h0⟩ := h0
      exact Or.inr (Or.inr (Or.inl ⟨a, ha, b, hb, h0, hmax', h.symm⟩))
    · push Not at h0
      refine Or.inr (Or.inl ⟨((range m).image v).card, Finset.eq_of_subset_of_card_le ?_ (by simp)⟩)
      intro u hu
      obtain ⟨c, hc, rfl⟩ := Finset.mem_image.1 hu
      have h1 := h0 c (Finset.mem_range.1 hc)
      have h2 := hmax c hc
      exact Finset.mem_Icc.2 ⟨by omega, by omega⟩
  · exact Or.inr (Or.inr (Or.inr ⟨b, hb, h⟩))

theorem load_congr {junk : Nat → Nat → ℝ} {rnd : Nat → Nat} {n o m : Nat} {xs : Nat → Nat → ℝ} {c1 c2 : Nat → Int} (h : ∀ i < m, c1 i = c2 i) :
    load junk rnd n o m xs c1 = load junk rnd n o m xs c2 := by
  unfold load
  simp only [Int.toNat_natCast]
  have : ∀ xy : Mat ℝ × Mat ℝ, loop m (fun i (xy : Mat ℝ × Mat ℝ) => do
      let x ← loop n (fun j (x : Mat ℝ) => x.setAt i j (xs i j)) xy.1
      let y ← xy.2.setAt i (c1 i) 1
      Except.ok (x, y)) xy = loop m (fun i (xy : Mat ℝ × Mat ℝ) => do
      let x ← loop n (fun j (x : Mat ℝ) => x.setAt i j (xs i j)) xy.1
      let y ← xy.2.setAt i (c2 i) 1
      Except.ok (x, y)) xy := fun xy => loop_congr (fun i hi a => by rw [h i hi])
  simp only [this]

/-- **C113** (end to end). For every readable file with at least two samples and one feature whose classes have names, or are the numbers 0 to k-1 or 1 to k, the program accepts the data: the training
and the test set are a permutation of the samples of the file, four fifths and one fifth, and the row of every sample has its one in the column of its class, where the columns are those of the
different classes, one each. -/
theorem C113_sent {junk : Nat → Nat → ℝ} {rnd : Nat → Nat} {float : List Char → Option ℝ} {lines : List (List Char)} {cols m : Nat} {v : Nat → Nat} {k : Nat} (h : Readable float (content lines) cols)
    (hm : (content lines).length = m) (h2 : 2 ≤ m) (hcols : 2 ≤ cols)
    (hc : (∃ s ∈ classTexts lines cols, ¬ NumberLike s) ∨ (∀ s ∈ classTexts lines cols, NumberLike s) ∧ (∀ a < m, float (classText lines cols a) = some (v a : ℝ)) ∧
      ((range m).image v = range k ∨ (range m).image v = Finset.Icc 1 k)) :
    ∃ (P : Prepared) (π : Equiv.Perm Nat) (d : Split) (c : Nat → Nat), process float lines = .ok P ∧ send junk rnd P = .ok d ∧ Permutes π m ∧
      (∀ a < m, ∀ b < m, c a = c b ↔ (if ∃ s ∈ classTexts lines cols, ¬ NumberLike s then classText lines cols a = classText lines cols b else v a = v b)) ∧
      P.o = (if ∃ s ∈ classTexts lines cols, ¬ NumberLike s then (classTexts lines cols).toFinset.card else k) ∧ (∀ a < m, c a < P.o) ∧
      (d.trainx.nr = 4 * m / 5 ∧ d.trainx.nc = cols - 1 ∧ ∀ i < 4 * m / 5, ∀ j < cols - 1, d.trainx.f i j = cell float (colOf (content lines) j) ((colOf (content lines) j).getD (π i) [])) ∧
      OneHotOf d.trainy (4 * m / 5) P.o (fun i => c (π i)) ∧
      (d.testx.nr = m - 4 * m / 5 ∧ d.testx.nc = cols - 1 ∧ ∀ i < m - 4 * m / 5, ∀ j < cols - 1,
        d.testx.f i j = cell float (colOf (content lines) j) ((colOf (content lines) j).getD (π (i + 4 * m / 5)) [])) ∧
      OneHotOf d.testy (m - 4 * m / 5) P.o (fun i => c (π (i + 4 * m / 5))) := by
  obtain ⟨P', e', -, -, hf⟩ := C113_features h
  have main : ∃ (P : Prepared) (c : Nat → Nat), process float lines = .ok P ∧ P.n = cols - 1 ∧ P.m = m ∧ (∀ a < m, P.data a P.n = (c a : Nat) ∧ c a < P.o) ∧
      (∀ a < m, ∀ b < m, c a = c b ↔ (if ∃ s ∈ classTexts lines cols, ¬ NumberLike s then classText lines cols a = classText lines cols b else v a = v b)) ∧
      P.o = (if ∃ s ∈ classTexts lines cols, ¬ NumberLike s then (classTexts lines cols).toFinset.card else k) := by
    rcases hc with hc | ⟨hc, hv, hk⟩
    · obtain ⟨P, e, hn, hm', ho, c, h1, -, h3⟩ := C113_named h hc
      rw [hm] at hm'
      rw [hm'] at h1 h3
      refine ⟨P, c, e, hn, hm', fun a ha => ⟨(h1 a ha).1, (h1 a ha).2.2⟩, fun a ha b hb => ?_, ?_⟩
      · rw [if_pos hc]
        exact h3 a ha b hb
      · rw [if_pos hc, ho]
    · have hno : ¬ ∃ s ∈ classTexts lines cols, ¬ NumberLike s := fun ⟨s, hs, hs'⟩ => hs' (hc s hs)
      obtain ⟨P, e, hn, hm', ho, h1⟩ := C113_numbered_partial h hc (by rw [hm]; exact hv) (by rw [hm]; exact hk)
      rw [hm] at hm'
      rw [hm'] at h1
      have mem : ∀ a < m, v a ∈ (range m).image v := fun a ha => Finset.mem_image_of_mem v (Finset.mem_range.2 ha)
      have kpos : 0 < k := by
        have := mem 0 (by omega)
        rcases hk with hk | hk <;> rw [hk] at this <;> simp at this <;> omega
      refine ⟨P, fun a => v a % k, e, hn, hm', fun a ha => ⟨h1 a ha, by rw [ho]; exact Nat.mod_lt _ kpos⟩, fun a ha b hb => ?_, ?_⟩
      · rw [if_neg hno]
        refine ⟨fun hh => ?_, fun hh => by dsimp only; rw [hh]⟩
        have ma := mem a ha
        have mb := mem b hb
        dsimp only at hh
        rcases hk with hk | hk
        · rw [hk, Finset.mem_range] at ma mb
          rwa [Nat.mod_eq_of_lt ma, Nat.mod_eq_of_lt mb] at hh
        · rw [hk, Finset.mem_Icc] at ma mb
          rcases Nat.lt_or_ge (v a) k with h1 | h1 <;> rcases Nat.lt_or_ge (v b) k with h2 | h2
          · rwa [Nat.mod_eq_of_lt h1, Nat.mod_eq_of_lt h2] at hh
          · have : v b = k := by omega
            rw [Nat.mod_eq_of_lt h1, this, Nat.mod_self] at hh
            omega
          · have : v a = k := by omega
            rw [Nat.mod_eq_of_lt h2, this, Nat.mod_self] at hh
            omega
          · omega
      · rw [if_neg hno, ho]
  obtain ⟨P, c, e, hn, hm', h1, h3, h4⟩ := main
  have hPP : P' = P := by
    rw [e'] at e
    injection e
  subst hPP
  rw [hn, hm'] at hf
  obtain ⟨π, hπ, d, hd, a1, a2, a3, a4⟩ := C104_load (junk := junk) (rnd := rnd) (n := cols - 1) (o := P'.o) (m := m) (xs := P'.data) (cls := c) (by omega) h2 (fun i hi => (h1 i hi).2)
  refine ⟨P', π, d, c, e, ?_, hπ, h3, h4, fun a ha => (h1 a ha).2, ⟨a1.1, a1.2.1, fun i hi j hj => ?_⟩, a2, ⟨a3.1, a3.2.1, fun i hi j hj => ?_⟩, a4⟩
  · unfold send
    rw [hm']
    have hcl : ∀ i < m, toInt (P'.data i P'.n) = ((c i : Nat) : Int) := fun i hi => by rw [(h1 i hi).1, toInt_nat]
    rw [← hd, hn]
    rw [hn] at hcl
    exact load_congr hcl
  · rw [a1.2.2 i hi j hj, hf _ (hπ i (by omega)) j hj]
  · rw [a3.2.2 i hi j hj, hf _ (hπ _ (by omega)) j hj]

end Experiment
end Nnet.NN
