import Verif.Tensor.PropsElem
namespace Nnet.Tensor
variable {R : Type}

theorem mkShape2 {r c : Int} {s : TensorShape} (h : mkShape [r, c] = .ok s) : 0 ≤ r ∧ 0 < c ∧ r * c ≤ intMax := by
  have hv := (mkShape_ok_imp h).1
  have hc : 0 < c := by simpa using valid_tail hv
  have hr : 0 ≤ r := by
    obtain ⟨d, ds, he, h0, -⟩ := hv; cases he; exact h0
  refine ⟨hr, hc, ?_⟩
  by_contra hlt
  have hck := checkDims_ok hv
  have hn : ¬ IsInt (r * c) := fun hI => hlt hI.2
  have : suffixChunks [r, c] = .error (.ub .signedOverflow) := by
    simp [suffixChunks, vecAt, cint, hn]
  simp [mkShape, hck, this] at h

theorem numel2 {r c : Nat} (hr : 0 < r) (hc : 0 < c) : numel [(r : Int), (c : Int)] = r * c := by
  rw [numel_pos_dims (by intro x hx; simp at hx; omega)]
  have : ([(r : Int), (c : Int)] : List Int).prod = ((r * c : Nat) : Int) := by simp
  rw [this, Int.toNat_natCast]

theorem numel1 {c : Nat} (hc : 0 < c) : numel [(c : Int)] = c := by
  rw [numel_pos_dims (by intro x hx; simp at hx; omega)]; simp

theorem mkShape1 {c : Nat} (_hc : (c : Int) ≤ intMax) : ∃ s, mkShape [(c : Int)] = .ok s :=
  ⟨_, mkShape_ok ⟨c, [], rfl, by omega, by simp⟩ (by
    intro i
    match i with
    | 0 => simpa
    | i + 1 => simp [intMax])⟩

theorem cint_nat {n : Nat} (h : (n : Int) ≤ intMax) : cint (n : Int) = .ok (n : Int) := by
  rw [cint, if_pos ⟨by unfold intMin; omega, h⟩]

theorem cell2_ok {t : Tensor} {a c b : Nat} (h : ((a * c + b : Nat) : Int) ≤ intMax) :
    t.cell2 (a : Int) (c : Int) (b : Int) = .ok (t.cell ((a * c + b : Nat) : Int)) := by
  unfold Tensor.cell2
  have e1 : (a : Int) * (c : Int) = ((a * c : Nat) : Int) := by push_cast; rfl
  rw [e1, cint_nat (by push_cast at *; omega), ok_bind]
  have e2 : ((a * c : Nat) : Int) + (b : Int) = ((a * c + b : Nat) : Int) := by push_cast; rfl
  rw [e2, cint_nat h, ok_bind]; rfl

theorem readAll_map {α : Type _} {h : Heap R} {l : List α} {f : α → Cell} {g : α → R}
    (hr : ∀ x ∈ l, h.read (f x).ptr (f x).idx = .ok (g x)) : readAll h (l.map f) = .ok (l.map g) := by
  induction l with
  | nil => rfl
  | cons a l ih =>
    rw [List.map_cons, readAll_cons, hr a (by simp), ok_bind, ih (fun x hx => hr x (by simp [hx])), ok_bind]; rfl

theorem readAll_flat {α : Type _} {h : Heap R} {l : List α} {f : α → List Cell} {g : α → List R}
    (hr : ∀ x ∈ l, readAll h (f x) = .ok (g x)) : readAll h (l.map f).flatten = .ok (l.map g).flatten := by
  induction l with
  | nil => rfl
  | cons a l ih =>
    have happ : ∀ (xs ys : List Cell) (us vs : List R), readAll h xs = .ok us → readAll h ys = .ok vs →
        readAll h (xs ++ ys) = .ok (us ++ vs) := by
      intro xs
      induction xs with
      | nil => intro ys us vs h1 h2; cases h1; simpa using h2
      | cons x xs ihx =>
        intro ys us vs h1 h2
        rw [readAll_cons] at h1
        cases hx : h.read x.ptr x.idx with
        | error e => simp [hx] at h1
        | ok v =>
          rw [hx, ok_bind] at h1
          cases hxs : readAll h xs with
          | error e => simp [hxs] at h1
          | ok ws =>
            rw [hxs, ok_bind] at h1; cases h1
            rw [List.cons_append, readAll_cons, hx, ok_bind, ihx ys ws vs hxs h2]; rfl
    rw [List.map_cons, List.flatten_cons, List.map_cons, List.flatten_cons]
    exact happ _ _ _ _ (hr a (by simp)) (ih (fun x hx => hr x (by simp [hx])))

theorem Holds.readD [Zero R] {h : Heap R} {t : Tensor} {dims : List Int} {vals : List R} (H : Holds h t dims vals) {i : Nat}
    (hi : i < vals.length) : h.read t.data (i : Int) = .ok (vals.getD i 0) := by
  apply H.read
  simp [List.getD, hi]

theorem idx_lt {i j r c : Nat} (hi : i < r) (hj : j < c) : i * c + j < r * c := by
  have : (i + 1) * c ≤ r * c := Nat.mul_le_mul_right _ hi
  rw [Nat.add_mul] at this; omega

theorem colCells_ok {t : Tensor} {r c : Nat} (hint : ((r * c : Nat) : Int) ≤ intMax) {j : Nat} (hj : j < c) (lo : Nat) :
    colCells t (c : Int) (j : Int) lo r = .ok ((List.range' lo (r - lo)).map (fun i => t.cell ((i * c + j : Nat) : Int))) := by
  unfold colCells
  apply mapM_ok
  intro i hi
  have hi := List.mem_range'.1 hi
  apply cell2_ok
  have := idx_lt (i := i) (r := r) (by omega) hj
  omega

theorem rowCells_ok {t : Tensor} {r c : Nat} (hint : ((r * c : Nat) : Int) ≤ intMax) {i : Nat} (hi : i < r) (lo : Nat) :
    rowCells t (c : Int) (i : Int) lo = .ok ((List.range' lo (c - lo)).map (fun j => t.cell ((i * c + j : Nat) : Int))) := by
  unfold rowCells
  rw [Int.toNat_natCast]
  apply mapM_ok
  intro j hj
  have hj := List.mem_range'.1 hj
  apply cell2_ok
  have := idx_lt (j := j) (c := c) hi (by omega)
  omega

theorem holds_size2 {h : Heap R} {t : Tensor} {a b : Int} {v : List R} (H : Holds h t [a, b] v) :
    t.shape.size = 2 ∧ t.shapeAt 0 = .ok a ∧ t.shapeAt 1 = .ok b :=
  ⟨by rw [mkShape_size H.mk]; rfl, shapeAt_mk H.mk (i := 0) (by simp), shapeAt_mk H.mk (i := 1) (by simp)⟩

theorem le_int {r c : Nat} (hr : 0 < r) (hint : ((r * c : Nat) : Int) ≤ intMax) : (c : Int) ≤ intMax := by
  have : c ≤ r * c := Nat.le_mul_of_pos_left c hr
  omega

theorem le_int' {r c : Nat} (hc : 0 < c) (hint : ((r * c : Nat) : Int) ≤ intMax) : (r : Int) ≤ intMax := by
  have : r ≤ r * c := Nat.le_mul_of_pos_right r hc
  omega

/-- Axis reduction over columns. -/
theorem reduceAxis0_ok [Zero R] [Add R] (fin : R → Int → R) (σ : Sched) {h : Heap R} {t : Tensor} {r c : Nat} {v : List R}
    (H : Holds h t [(r : Int), (c : Int)] v) (hci : (c : Int) ≤ intMax) :
    ∃ out h', reduceAxis fin σ h t 0 = .ok (out, h') ∧
      Fresh h h' out [(c : Int)] ((List.range c).map (fun j => fin ((col v r c j).foldl (· + ·) 0) r)) := by
  obtain ⟨hs, s0, s1⟩ := holds_size2 H
  obtain ⟨hr0, hc0, hint⟩ := mkShape2 H.mk
  have hc : 0 < c := by omega
  have hint : ((r * c : Nat) : Int) ≤ intMax := by push_cast; exact hint
  obtain ⟨s, hsc⟩ := mkShape1 hci
  refine ⟨⟨s, some h.blocks.length⟩, _, ?_, hsc, by simp [numel1 hc], rfl, rfl⟩
  unfold reduceAxis
  rw [assertC_true hs, ok_bind, s0, ok_bind, s1, ok_bind, if_pos rfl, hsc, ok_bind, ofShape_ok h hsc, ok_bind]
  simp only [numel1 hc, Int.toNat_natCast]
  rw [parFor_full σ h c _ (fun j => ⟨(List.range' 0 (r - 0)).map (fun i => t.cell ((i * c + j : Nat) : Int)),
      fun vs => some (fin (vs.foldl (· + ·) 0) r), ⟨some h.blocks.length, j⟩⟩) (fun j => col v r c j)
    ((List.range c).map (fun j => fin ((col v r c j).foldl (· + ·) 0) r)) (by simp)]
  · rfl
  · intro j hj
    simp only [colCells_ok hint hj, ok_bind]; rfl
  · intro j hj; rfl
  · intro j hj
    rw [Nat.sub_zero, ← List.range_eq_range']
    apply readAll_map
    intro i hi
    have hi := List.mem_range.1 hi
    apply H.readD
    rw [H.len, numel2 (by omega) hc]
    exact idx_lt hi hj
  · intro j hj; simp

/-- Axis reduction over rows, for at least one row. -/
theorem reduceAxis1_ok [Zero R] [Add R] (fin : R → Int → R) (σ : Sched) {h : Heap R} {t : Tensor} {r c : Nat} {v : List R}
    (H : Holds h t [(r : Int), (c : Int)] v) (hr : 0 < r) (axis : Int) (ha : axis ≠ 0) :
    ∃ out h', reduceAxis fin σ h t axis = .ok (out, h') ∧
      Fresh h h' out [(r : Int)] ((List.range r).map (fun i => fin ((row v c i).foldl (· + ·) 0) c)) := by
  obtain ⟨hs, s0, s1⟩ := holds_size2 H
  obtain ⟨hr0, hc0, hint⟩ := mkShape2 H.mk
  have hc : 0 < c := by omega
  have hint : ((r * c : Nat) : Int) ≤ intMax := by push_cast; exact hint
  obtain ⟨s, hsc⟩ := mkShape1 (le_int' hc hint)
  refine ⟨⟨s, some h.blocks.length⟩, _, ?_, hsc, by simp [numel1 hr], rfl, rfl⟩
  unfold reduceAxis
  rw [assertC_true hs, ok_bind, s0, ok_bind, s1, ok_bind, if_neg ha, hsc, ok_bind, ofShape_ok h hsc, ok_bind]
  simp only [numel1 hr]
  rw [parFor_full σ h r _ (fun i => ⟨(List.range' 0 (c - 0)).map (fun j => t.cell ((i * c + j : Nat) : Int)),
      fun vs => some (fin (vs.foldl (· + ·) 0) c), ⟨some h.blocks.length, i⟩⟩) (fun i => row v c i)
    ((List.range r).map (fun i => fin ((row v c i).foldl (· + ·) 0) c)) (by simp)]
  · rfl
  · intro i hi
    simp only [rowCells_ok hint hi, ok_bind]; rfl
  · intro j hj; rfl
  · intro i hi
    rw [Nat.sub_zero, ← List.range_eq_range']
    apply readAll_map
    intro j hj
    have hj := List.mem_range.1 hj
    apply H.readD
    rw [H.len, numel2 hr hc]
    exact idx_lt hi hj
  · intro j hj; simp

/-- Folding with "replace if better". -/
def pickBest (better : R → R → Bool) : List R → Option R
  | [] => none
  | v :: vs => some (vs.foldl (fun cur val => if better val cur then val else cur) v)

theorem range_head (n : Nat) (hn : 0 < n) : List.range n = 0 :: List.range' 1 (n - 1) := by
  rw [List.range_eq_range']
  cases n with
  | zero => omega
  | succ n => simp [List.range'_succ]

theorem argAxis0_ok [Zero R] (better : R → R → Bool) (σ : Sched) {h : Heap R} {t : Tensor} {r c : Nat} {v : List R}
    (H : Holds h t [(r : Int), (c : Int)] v) (hr : 0 < r) :
    ∃ out h', argAxis better σ h t 0 = .ok (out, h') ∧
      Fresh h h' out [(c : Int)] ((List.range c).map (fun j => (pickBest better (col v r c j)).getD 0)) := by
  obtain ⟨hs, s0, s1⟩ := holds_size2 H
  obtain ⟨hr0, hc0, hint⟩ := mkShape2 H.mk
  have hc : 0 < c := by omega
  have hint : ((r * c : Nat) : Int) ≤ intMax := by push_cast; exact hint
  obtain ⟨s, hsc⟩ := mkShape1 (le_int hr hint)
  refine ⟨⟨s, some h.blocks.length⟩, _, ?_, hsc, by simp [numel1 hc], rfl, rfl⟩
  unfold argAxis
  rw [assertC_true hs, ok_bind, s0, ok_bind, s1, ok_bind]
  simp only [if_true]
  rw [hsc, ok_bind, ofShape_ok h hsc, ok_bind]
  simp only [numel1 hc, Int.toNat_natCast]
  rw [parFor_full σ h c _ (fun j => ⟨t.cell ((j : Nat) : Int) :: (List.range' 1 (r - 1)).map (fun i => t.cell ((i * c + j : Nat) : Int)),
      fun vs => pickBest better vs, ⟨some h.blocks.length, j⟩⟩) (fun j => col v r c j)
    ((List.range c).map (fun j => (pickBest better (col v r c j)).getD 0)) (by simp)]
  · rfl
  · intro j hj
    simp only [colCells_ok hint hj, ok_bind]
    congr 2
  · intro j hj; rfl
  · intro j hj
    have : t.cell ((j : Nat) : Int) :: (List.range' 1 (r - 1)).map (fun i => t.cell ((i * c + j : Nat) : Int)) =
        (List.range r).map (fun i => t.cell ((i * c + j : Nat) : Int)) := by
      rw [range_head r hr]; simp
    rw [this]
    apply readAll_map
    intro i hi
    have hi := List.mem_range.1 hi
    apply H.readD
    rw [H.len, numel2 hr hc]
    exact idx_lt hi hj
  · intro j hj; simp

theorem argAxis1_ok [Zero R] (better : R → R → Bool) (σ : Sched) {h : Heap R} {t : Tensor} {r c : Nat} {v : List R}
    (H : Holds h t [(r : Int), (c : Int)] v) (hr : 0 < r) (axis : Int) (ha : axis ≠ 0) :
    ∃ out h', argAxis better σ h t axis = .ok (out, h') ∧
      Fresh h h' out [(r : Int)] ((List.range r).map (fun i => (pickBest better (row v c i)).getD 0)) := by
  obtain ⟨hs, s0, s1⟩ := holds_size2 H
  obtain ⟨hr0, hc0, hint⟩ := mkShape2 H.mk
  have hc : 0 < c := by omega
  have hint : ((r * c : Nat) : Int) ≤ intMax := by push_cast; exact hint
  obtain ⟨s, hsc⟩ := mkShape1 (le_int' hc hint)
  refine ⟨⟨s, some h.blocks.length⟩, _, ?_, hsc, by simp [numel1 hr], rfl, rfl⟩
  unfold argAxis
  rw [assertC_true hs, ok_bind, s0, ok_bind, s1, ok_bind]
  simp only [if_neg ha]
  rw [hsc, ok_bind, ofShape_ok h hsc, ok_bind]
  simp only [numel1 hr]
  rw [parFor_full σ h r _ (fun i => ⟨t.cell ((i * c : Nat) : Int) :: (List.range' 1 (c - 1)).map (fun j => t.cell ((i * c + j : Nat) : Int)),
      fun vs => pickBest better vs, ⟨some h.blocks.length, i⟩⟩) (fun i => row v c i)
    ((List.range r).map (fun i => (pickBest better (row v c i)).getD 0)) (by simp)]
  · rfl
  · intro i hi
    have e : (i : Int) * (c : Int) = ((i * c : Nat) : Int) := by push_cast; rfl
    have := idx_lt (j := 0) hi hc
    rw [e, cint_nat (by omega), ok_bind]
    simp only [rowCells_ok hint hi, ok_bind]
    congr 2
  · intro j hj; rfl
  · intro i hi
    have : t.cell ((i * c : Nat) : Int) :: (List.range' 1 (c - 1)).map (fun j => t.cell ((i * c + j : Nat) : Int)) =
        (List.range c).map (fun j => t.cell ((i * c + j : Nat) : Int)) := by
      rw [range_head c hc]; simp
    rw [this]
    apply readAll_map
    intro j hj
    have hj := List.mem_range.1 hj
    apply H.readD
    rw [H.len, numel2 hr hc]
    exact idx_lt hi hj
  · intro j hj; simp

theorem sumLoop_ok [Zero R] [Add R] {h : Heap R} {t : Tensor} {dims : List Int} {v : List R} (H : Holds h t dims v)
    (n i : Nat) (acc : R) (hn : i + n = v.length) : sumLoop h t n i acc = .ok ((v.drop i).foldl (· + ·) acc) := by
  induction n generalizing i acc with
  | zero => rw [List.drop_of_length_le (by omega)]; rfl
  | succ n ih =>
    unfold sumLoop
    have hi : i < v.length := by omega
    rw [Tensor.get, H.read (List.getElem?_eq_getElem hi), ok_bind, ih (i + 1) _ (by omega)]
    rw [List.drop_eq_getElem_cons hi]; rfl

/-! ## Matrix product -/

theorem dotAcc_flat [Add R] [Mul R] (l : List Nat) (a b : Nat → R) (acc : R) :
    dotAcc acc (l.map (fun x => [a x, b x])).flatten = l.foldl (fun acc x => acc + a x * b x) acc := by
  induction l generalizing acc with
  | nil => rfl
  | cons x l ih => simpa [dotAcc] using ih _

theorem dotCells_ok {t1 t2 : Tensor} {m k n : Nat} (h1 : ((m * k : Nat) : Int) ≤ intMax) (h2 : ((k * n : Nat) : Int) ≤ intMax)
    {i j : Nat} (hi : i < m) (hj : j < n) :
    dotCells t1 t2 (k : Int) (n : Int) (i : Int) (j : Int) =
      .ok ((List.range k).map (fun l => [t1.cell ((i * k + l : Nat) : Int), t2.cell ((l * n + j : Nat) : Int)])).flatten := by
  unfold dotCells
  rw [Int.toNat_natCast, mapM_ok (fun l => [t1.cell ((i * k + l : Nat) : Int), t2.cell ((l * n + j : Nat) : Int)])]
  · rfl
  · intro l hl
    have hl := List.mem_range.1 hl
    have b1 := idx_lt hi hl
    have b2 := idx_lt hl hj
    rw [cell2_ok (by omega), ok_bind, cell2_ok (by omega), ok_bind]; rfl

theorem Holds.set_ne {h : Heap R} {t : Tensor} {dims : List Int} {v : List R} (H : Holds h t dims v) {q : Nat}
    (hq : t.data ≠ some q) (b : Block R) : Holds (⟨h.blocks.set q b⟩ : Heap R) t dims v := by
  obtain ⟨p, h1, h2, h3, arr, h4⟩ := H
  refine ⟨p, h1, h2, h3, arr, ?_⟩
  have : q ≠ p := by rintro rfl; exact hq h3
  simp [this, h4]

theorem matmulLoop_ok [Zero R] [Add R] [Mul R] (σ : Nat → Sched) {t1 t2 out : Tensor} {m k n : Nat} {v1 v2 : List R}
    {q : Nat} (hm : 0 < m) (hk : 0 < k) (hn : 0 < n) (hout : out.data = some q) (hq1 : t1.data ≠ some q) (hq2 : t2.data ≠ some q)
    (hmn : ((m * n : Nat) : Int) ≤ intMax) (todo i : Nat) (hi : i + todo = m)
    {h : Heap R} {b : Block R} (hb : h.blocks[q]? = some b) (hl : b.live = true) (hlen : m * n ≤ b.cells.length)
    (H1 : Holds h t1 [(m : Int), (k : Int)] v1) (H2 : Holds h t2 [(k : Int), (n : Int)] v2) :
    matmulLoop σ t1 t2 out (k : Int) (n : Int) todo i h =
      .ok ⟨h.blocks.set q { b with cells := b.cells.mapIdx (fun p c =>
        if i * n ≤ p ∧ p < m * n then some (dotSpec k n v1 v2 (p / n) (p % n)) else c) }⟩ := by
  induction todo generalizing i h b with
  | zero =>
    have : b.cells.mapIdx (fun p c => if i * n ≤ p ∧ p < m * n then some (dotSpec k n v1 v2 (p / n) (p % n)) else c) = b.cells := by
      apply List.ext_getElem
      · simp
      · intro j g1 g2
        simp only [List.getElem_mapIdx]
        rw [if_neg]
        have : i = m := by omega
        subst this; omega
    rw [this]
    simp [matmulLoop, set_self hb]
  | succ todo ih =>
    have him : i < m := by omega
    have i1 : ((m * k : Nat) : Int) ≤ intMax := by have := (mkShape2 H1.mk).2.2; push_cast; exact this
    have i2 : ((k * n : Nat) : Int) ≤ intMax := by have := (mkShape2 H2.mk).2.2; push_cast; exact this
    unfold matmulLoop
    have hlast := idx_lt (i := i) (j := n - 1) (r := m) (c := n) him (by omega)
    rw [parFor_block (σ i) hb hl n (i * n) (by omega) _
      (fun j => ⟨((List.range k).map (fun l => [t1.cell ((i * k + l : Nat) : Int), t2.cell ((l * n + j : Nat) : Int)])).flatten,
        fun vs => some (dotAcc 0 vs), ⟨some q, ((i * n + j : Nat) : Int)⟩⟩)
      (fun j => ((List.range k).map (fun l => [v1.getD (i * k + l) 0, v2.getD (l * n + j) 0])).flatten)]
    · rw [ok_bind]
      have hqlt : q < h.blocks.length := by rw [List.getElem?_eq_some_iff] at hb; exact hb.1
      generalize hb' : ({ b with cells := b.cells.mapIdx (fun j c =>
        if i * n ≤ j ∧ j < i * n + n then
          (match some (dotAcc 0 ((List.range k).map (fun l => [v1.getD (i * k + l) 0, v2.getD (l * n + (j - i * n)) 0])).flatten) with
            | some v => some v | none => c) else c) } : Block R) = b'
      have hbl : b'.live = true := by rw [← hb']; exact hl
      have hbc : b'.cells.length = b.cells.length := by rw [← hb']; simp
      rw [ih (i + 1) (by omega) (h := ⟨h.blocks.set q b'⟩) (b := b') (by simp [hqlt]) hbl (by omega) (H1.set_ne hq1 _) (H2.set_ne hq2 _)]
      simp only [List.set_set]
      congr 4
      · apply List.ext_getElem
        · simp [hbc]
        · intro p g1 g2
          subst hb'
          simp only [List.getElem_mapIdx]
          by_cases c1 : (i + 1) * n ≤ p ∧ p < m * n
          · rw [if_pos c1, if_pos ⟨by rw [Nat.add_mul] at c1; omega, c1.2⟩]
          · rw [if_neg c1]
            rw [Nat.add_mul] at c1
            by_cases c2 : i * n ≤ p ∧ p < i * n + n
            · rw [if_pos c2, if_pos ⟨c2.1, by omega⟩]
              have e1 : p / n = i := by
                rw [Nat.div_eq_of_lt_le]
                · omega
                · rw [Nat.succ_mul]; omega
              have e2 : p % n = p - i * n := by
                have := Nat.div_add_mod p n
                rw [e1, Nat.mul_comm] at this; omega
              simp only [dotAcc_flat, dotSpec, e1, e2]
            · rw [if_neg c2, if_neg (by omega)]
      · rw [← hb']
      · rw [← hb']
    · intro j hj
      rw [dotCells_ok i1 i2 him hj, ok_bind]
      have := idx_lt him hj
      rw [cell2_ok (by omega), ok_bind, Tensor.cell, hout]; rfl
    · intro j hj; rfl
    · intro j hj c hc
      rw [List.mem_flatten] at hc
      obtain ⟨l, hl, hc⟩ := hc
      obtain ⟨x, _, rfl⟩ := List.mem_map.1 hl
      simp only [List.mem_cons, List.not_mem_nil, or_false] at hc
      rcases hc with rfl | rfl
      · exact hq1
      · exact hq2
    · intro j hj
      apply readAll_flat
      intro l hl
      have hl := List.mem_range.1 hl
      apply readAll_two
      · apply H1.readD
        rw [H1.len, numel2 hm hk]; exact idx_lt him hl
      · apply H2.readD
        rw [H2.len, numel2 hk hn]; exact idx_lt hl hj

end Nnet.Tensor
