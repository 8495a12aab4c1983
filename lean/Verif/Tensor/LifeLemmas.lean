import Verif.Tensor.OpLemmas
import Mathlib.Tactic.Linarith
namespace Nnet.Tensor
variable {R : Type}

/-! ## Sequential loops -/

theorem set_self {α : Type _} {l : List α} {q : Nat} {b : α} (hb : l[q]? = some b) : l.set q b = l := by
  have hq : q < l.length := by rw [List.getElem?_eq_some_iff] at hb; exact hb.1
  apply List.ext_getElem?
  intro j
  rw [List.getElem?_set]
  by_cases hj : q = j
  · subst hj; rw [if_pos rfl, if_pos hq, hb]
  · simp [hj]

theorem fillLoop_eq {h : Heap R} {q : Nat} {b : Block R} (hb : h.blocks[q]? = some b) (hl : b.live = true) (f : Nat → R)
    (n i : Nat) (hn : i + n ≤ b.cells.length) :
    Tensor.fillLoop (some q) f n i h =
      .ok (((List.range n).map (fun j => (some (f (i + j))).map (fun v => (q, i + j, v)))).foldl applyOut h) := by
  induction n generalizing h i b with
  | zero => rfl
  | succ n ih =>
    unfold Tensor.fillLoop
    have ha := access_ok hb hl (k := i) (by omega)
    simp only [Heap.write, ha, ok_bind]
    have hb' : (h.poke q i (f i)).blocks[q]? = some { b with cells := b.cells.set i (some (f i)) } := by
      simp [Heap.poke, hb]
    rw [ih hb' hl (i + 1) (by simp; omega), List.range_succ_eq_map]
    simp only [List.map_cons, List.map_map, List.foldl_cons, Option.map_some, applyOut, Nat.add_zero]
    congr 3
    funext j
    simp only [Function.comp, Nat.succ_eq_add_one]
    rw [show i + 1 + j = i + (j + 1) by omega]

theorem copyLoop_eq {h : Heap R} {q : Nat} {b : Block R} (hb : h.blocks[q]? = some b) (hl : b.live = true) (src : Ptr)
    (v : Nat → R) (n i : Nat) (hn : i + n ≤ b.cells.length)
    (hsrc : src ≠ some q) (hv : ∀ j < n, h.read src ((i + j : Nat) : Int) = .ok (v (i + j))) :
    copyLoop (some q) src n i h =
      .ok (((List.range n).map (fun j => (some (v (i + j))).map (fun v => (q, i + j, v)))).foldl applyOut h) := by
  induction n generalizing h i b with
  | zero => rfl
  | succ n ih =>
    unfold copyLoop
    have ha := access_ok hb hl (k := i) (by omega)
    have h0 := hv 0 (by omega)
    simp only [Nat.add_zero] at h0
    simp only [h0, Heap.write, ha, ok_bind]
    have hb' : (h.poke q i (v i)).blocks[q]? = some { b with cells := b.cells.set i (some (v i)) } := by
      simp [Heap.poke, hb]
    rw [ih hb' hl (i + 1) (by simp; omega), List.range_succ_eq_map]
    · simp only [List.map_cons, List.map_map, List.foldl_cons, Option.map_some, applyOut, Nat.add_zero]
      congr 3
      funext j
      simp only [Function.comp, Nat.succ_eq_add_one]
      rw [show i + 1 + j = i + (j + 1) by omega]
    · intro j hj
      have := hv (j + 1) (by omega)
      rw [show i + 1 + j = i + (j + 1) by omega, ← this]
      exact read_poke_ne (c := ⟨src, ((i + (j + 1) : Nat) : Int)⟩) (fun hc => hsrc (congrArg Cell.ptr hc))

/-- Copying into a block: the first `n` cells are overwritten. -/
theorem copyLoop_ok {h : Heap R} {q : Nat} {b : Block R} (hb : h.blocks[q]? = some b) (hl : b.live = true) (src : Ptr)
    (vals : List R) (n : Nat) (hn : n ≤ b.cells.length) (hvn : n ≤ vals.length)
    (hsrc : src ≠ some q) (hv : ∀ (j : Nat) (hj : j < vals.length), h.read src (j : Int) = .ok vals[j]) :
    copyLoop (some q) src n 0 h =
      .ok ⟨h.blocks.set q { b with cells := (vals.take n).map some ++ b.cells.drop n }⟩ := by
  by_cases hn0 : n = 0
  · subst hn0
    simp [copyLoop, set_self hb]
  have hne : vals ≠ [] := by intro h; simp [h] at hvn; omega
  let d := vals.head hne
  rw [copyLoop_eq hb hl src (fun j => vals.getD j d) n 0 (by omega) hsrc]
  · rw [foldl_poke_range hb 0 (fun j => some (vals.getD (0 + j) d)) n (by omega)]
    congr 4
    apply List.ext_getElem
    · simp; omega
    · intro j h1 h2
      simp only [List.getElem_mapIdx, Nat.zero_le, true_and, Nat.zero_add, Nat.sub_zero]
      by_cases hj : j < n
      · have hjv : j < vals.length := by omega
        simp only [hj, if_true, List.getD]
        rw [List.getElem_append_left (by simp; omega)]
        simp [hjv]
      · rw [if_neg hj, List.getElem_append_right (by simp; omega)]
        simp only [List.length_map, List.length_take, List.getElem_drop]
        congr 1
        omega
  · intro j hj
    have hjv : j < vals.length := by omega
    have := hv j hjv
    simp only [Nat.zero_add]
    rw [this]; simp [List.getD, hjv]

/-- A loop that reads a source beyond its end is undefined behaviour. -/
theorem copyLoop_oob {h : Heap R} {q : Nat} {b : Block R} (hb : h.blocks[q]? = some b) (hl : b.live = true)
    {p : Nat} {c : Block R} (hp : h.blocks[p]? = some c) (hcl : c.live = true) (vals : List R) (hc : c.cells = vals.map some)
    (hpq : p ≠ q) (n i : Nat) (hi : i ≤ vals.length) (hn : vals.length < i + n) (hbn : i + n ≤ b.cells.length) :
    copyLoop (some q) (some p) n i h = .error (.ub .outOfBounds) := by
  induction n generalizing h i b with
  | zero => omega
  | succ n ih =>
    unfold copyLoop
    by_cases hlt : i < vals.length
    · have hr : h.read (some p) (i : Int) = .ok vals[i] := read_mk hp hcl (by simp [hc, hlt])
      have ha := access_ok hb hl (k := i) (by omega)
      simp only [hr, Heap.write, ha, ok_bind]
      have hb' : (h.poke q i vals[i]).blocks[q]? = some { b with cells := b.cells.set i (some vals[i]) } := by
        simp [Heap.poke, hb]
      have hp' : (h.poke q i vals[i]).blocks[p]? = some c := by
        simp [Heap.poke, hp, hpq.symm]
      exact ih hb' hl hp' (i + 1) (by omega) (by omega) (by simp; omega)
    · have : h.access (some p) (i : Int) = .error (.ub .outOfBounds) := by
        have : ¬ i < c.cells.length := by rw [hc]; simpa using hlt
        simp [Heap.access, hp, hcl, this]
      simp [Heap.read, this]

theorem copyLoop_null {h : Heap R} (dst : Ptr) (n i : Nat) (hn : 0 < n) :
    copyLoop dst none n i h = .error (.ub .nullDeref) := by
  cases n with
  | zero => omega
  | succ n => simp [copyLoop, Heap.read, Heap.access]

theorem numel_pos {dims : List Int} (hv : ValidDims dims) : 0 < numel dims := by
  have := prod_nonneg' hv.nonneg
  unfold numel
  split <;> omega

theorem set_last {α : Type _} (l : List α) (a b : α) : (l ++ [a]).set l.length b = l ++ [b] := by
  rw [List.set_append_right _ _ (le_refl _)]; simp

theorem copyCtor_ok [Zero R] {h : Heap R} {src : Tensor} {dims : List Int} {v : List R} (H : Holds h src dims v) :
    Tensor.copyCtor h src = .ok (⟨src.shape, some h.blocks.length⟩, ⟨h.blocks ++ [⟨v.map some, true, true⟩]⟩) := by
  have hs := H.mk
  have hl := H.len
  obtain ⟨p, hp, hlt⟩ := H.ptr
  unfold Tensor.copyCtor
  simp only [copyShape_mk hs, mkShape_chunk0 hs, ok_bind, Heap.alloc, Int.toNat_natCast]
  have hb : (⟨h.blocks ++ [⟨List.replicate (numel dims) (some 0), true, true⟩]⟩ : Heap R).blocks[h.blocks.length]? =
      some ⟨List.replicate (numel dims) (some 0), true, true⟩ := by simp
  rw [copyLoop_ok hb rfl src.data v (numel dims) (by simp) (by omega)]
  · simp only [ok_bind, pure_eq_ok, set_last]
    simp [← hl]
  · rw [hp]; intro hc; cases hc; omega
  · intro j hj
    exact (H.append _).read (List.getElem?_eq_getElem hj)

theorem copyCtor_null [Zero R] (h : Heap R) {s : TensorShape} {dims : List Int} (hs : mkShape dims = .ok s) :
    Tensor.copyCtor h ⟨s, none⟩ = .error (.ub .nullDeref) := by
  unfold Tensor.copyCtor
  simp only [copyShape_mk hs, mkShape_chunk0 hs, ok_bind, Heap.alloc, Int.toNat_natCast]
  rw [copyLoop_null _ _ _ (numel_pos (mkShape_ok_imp hs).1)]; rfl

theorem fill_fresh [Zero R] (h : Heap R) (f : Nat → R) (n : Nat) :
    Tensor.fillLoop (some h.blocks.length) f n 0 (withZeros h n) =
      .ok ⟨h.blocks ++ [⟨((List.range n).map f).map some, true, true⟩]⟩ := by
  have hb : (withZeros h n).blocks[h.blocks.length]? = some ⟨List.replicate n (some 0), true, true⟩ := by
    simp [withZeros]
  rw [fillLoop_eq hb rfl f n 0 (by simp), foldl_poke_range hb 0 (fun j => some (f (0 + j))) n (by simp)]
  simp only [withZeros, set_last]
  congr 5
  apply List.ext_getElem
  · simp
  · intro j h1 h2
    have hj : j < n := by simpa using h1
    simp [hj]

/-! ## Eyes -/

open scoped Classical in
theorem eyesLoop_ok [One R] {h : Heap R} {q : Nat} {b : Block R} (hb : h.blocks[q]? = some b) (hl : b.live = true)
    (n : Nat) (hlen : b.cells.length = n * n) (hint : ((n * n : Nat) : Int) ≤ intMax) (todo i : Nat) (hi : i + todo = n) :
    Tensor.eyesLoop (some q) (n : Int) todo i h =
      .ok ⟨h.blocks.set q { b with cells := b.cells.mapIdx (fun k c =>
        if ∃ j, i ≤ j ∧ j < n ∧ k = j * n + j then some 1 else c) }⟩ := by
  induction todo generalizing h i b with
  | zero =>
    have : b.cells.mapIdx (fun k c => if ∃ j, i ≤ j ∧ j < n ∧ k = j * n + j then some 1 else c) = b.cells := by
      apply List.ext_getElem
      · simp
      · intro j h1 h2
        simp only [List.getElem_mapIdx]
        rw [if_neg]; rintro ⟨j, h3, h4, -⟩; omega
    rw [this]
    simp [Tensor.eyesLoop, set_self hb]
  | succ todo ih =>
    unfold Tensor.eyesLoop
    have hin : i < n := by omega
    have hpos : i * n + i < n * n := by nlinarith
    have hmul : i * n ≤ n * n := by nlinarith
    have c1 : cint ((i : Int) * (n : Int)) = .ok ((i * n : Nat) : Int) := by
      have e : (i : Int) * (n : Int) = ((i * n : Nat) : Int) := by push_cast; rfl
      rw [e, cint, if_pos ⟨by unfold intMin; omega, by omega⟩]
    have c2 : cint (((i * n : Nat) : Int) + (i : Int)) = .ok ((i * n + i : Nat) : Int) := by
      have e : ((i * n : Nat) : Int) + (i : Int) = ((i * n + i : Nat) : Int) := by push_cast; rfl
      rw [e, cint, if_pos ⟨by unfold intMin; omega, by omega⟩]
    have ha := access_ok hb hl (k := i * n + i) (by omega)
    simp only [c1, c2, ok_bind, Heap.write, ha]
    have hb' : (h.poke q (i * n + i) 1).blocks[q]? = some { b with cells := b.cells.set (i * n + i) (some 1) } := by
      simp [Heap.poke, hb]
    rw [ih hb' hl (by simpa using hlen) (i + 1) (by omega)]
    congr 2
    apply List.ext_getElem?
    intro j
    simp only [Heap.poke, List.getElem?_set, List.getElem?_modify, List.length_modify]
    by_cases hj : q = j
    · subst hj
      have hq : q < h.blocks.length := by rw [List.getElem?_eq_some_iff] at hb; exact hb.1
      simp only [hq, if_true, Option.some.injEq, Block.mk.injEq, and_true]
      apply List.ext_getElem
      · simp
      · intro k h1 h2
        simp only [List.getElem_mapIdx, List.getElem_set]
        by_cases hk : k = i * n + i
        · have p1 : ∃ j, i ≤ j ∧ j < n ∧ k = j * n + j := ⟨i, le_refl _, hin, hk⟩
          rw [if_pos p1]
          simp [hk.symm]
        · by_cases hp : ∃ j, i + 1 ≤ j ∧ j < n ∧ k = j * n + j
          · rw [if_pos hp, if_pos]
            obtain ⟨j, h3, h4, h5⟩ := hp; exact ⟨j, by omega, h4, h5⟩
          · rw [if_neg hp, if_neg (by omega), if_neg]
            rintro ⟨j, h3, h4, h5⟩
            rcases Nat.eq_or_lt_of_le h3 with rfl | h3
            · exact hk h5
            · exact hp ⟨j, h3, h4, h5⟩
    · simp [hj]

/-- Elements of the identity matrix in row-major order. -/
def eyeVals [Zero R] [One R] (n : Nat) : List R :=
  (List.range (n * n)).map (fun k => if k / n = k % n then 1 else 0)

theorem mkShape_nn {n : Nat} (hn : 0 < n) (hint : ((n * n : Nat) : Int) ≤ intMax) :
    ∃ s, mkShape [(n : Int), (n : Int)] = .ok s := by
  refine ⟨_, mkShape_ok ⟨n, [(n:Int)], rfl, by omega, by simpa using hn⟩ ?_⟩
  intro i
  have hnn : n ≤ n * n := Nat.le_mul_of_pos_left n hn
  match i with
  | 0 => simpa using hint
  | 1 => simp only [List.drop_succ_cons, List.drop_zero, List.prod_cons, List.prod_nil, mul_one]; omega
  | i + 2 => simp [intMax]

theorem eyes_ok [Zero R] [One R] (h : Heap R) (n : Nat) (hn : 0 < n) (hint : ((n * n : Nat) : Int) ≤ intMax) :
    ∃ t h', Tensor.eyes h (n : Int) = .ok (t, h') ∧ Fresh h h' t [(n : Int), (n : Int)] (eyeVals n) := by
  obtain ⟨s, hs⟩ := mkShape_nn hn hint
  have hnum : numel [(n : Int), (n : Int)] = n * n := by
    rw [numel_pos_dims (by simpa using hn)]
    have : ([(n : Int), (n : Int)] : List Int).prod = ((n * n : Nat) : Int) := by simp
    rw [this, Int.toNat_natCast]
  refine ⟨⟨s, some h.blocks.length⟩, ⟨h.blocks ++ [⟨(eyeVals n).map some, true, true⟩]⟩, ?_, hs, by simp [eyeVals, hnum], rfl, rfl⟩
  unfold Tensor.eyes
  simp only [hs, ok_bind, ofShape_ok h hs, hnum, Int.toNat_natCast]
  have hb : (withZeros (R := R) h (n * n)).blocks[h.blocks.length]? = some ⟨List.replicate (n * n) (some 0), true, true⟩ := by
    simp [withZeros]
  rw [eyesLoop_ok hb rfl n (by simp) hint n 0 (by omega)]
  simp only [ok_bind, pure_eq_ok, withZeros, set_last]
  congr 6
  apply List.ext_getElem
  · simp [eyeVals]
  · intro k h1 h2
    have hk : k < n * n := by simpa using h1
    simp only [List.getElem_mapIdx, List.getElem_replicate, eyeVals, List.map_map, List.getElem_map, List.getElem_range,
      Function.comp]
    by_cases he : k / n = k % n
    · rw [if_pos he, if_pos]
      refine ⟨k / n, Nat.zero_le _, Nat.div_lt_of_lt_mul hk, ?_⟩
      conv_rhs => rw [he, Nat.mul_comm]
      rw [he.symm]
      have := Nat.div_add_mod k n
      omega
    · rw [if_neg he, if_neg]
      rintro ⟨j, -, hj, rfl⟩
      apply he
      rw [Nat.mul_comm j n, Nat.mul_add_div hn, Nat.mul_add_mod, Nat.div_eq_of_lt hj, Nat.mod_eq_of_lt hj]; omega

/-! ## Assignment -/

theorem Holds.read_block {h : Heap R} {t : Tensor} {p : Nat} {dims : List Int} {v : List R} (H : HoldsAt h t p dims v)
    {h' : Heap R} (hb : h'.blocks[p]? = h.blocks[p]?) (j : Nat) (hj : j < v.length) : h'.read t.data (j : Int) = .ok v[j] := by
  obtain ⟨h1, h2, h3, arr, h4⟩ := H
  rw [h3]
  exact read_mk (hb.trans h4) rfl (by simp [hj])

theorem copyAssign_same [Zero R] {h : Heap R} {dst src : Tensor} {p q : Nat} {d1 d2 : List Int} {v1 v2 : List R} {arr : Bool}
    (hd : mkShape d1 = .ok dst.shape) (hdp : dst.data = some p) (hl1 : v1.length = numel d1)
    (hb : h.blocks[p]? = some ⟨v1.map some, arr, true⟩)
    (H2 : HoldsAt h src q d2 v2) (hpq : p ≠ q) (hn : numel d1 = numel d2) :
    Tensor.copyAssign h dst src = .ok (⟨src.shape, some p⟩, ⟨h.blocks.set p ⟨v2.map some, arr, true⟩⟩) := by
  have hs2 := H2.1
  have hl2 := H2.2.1
  unfold Tensor.copyAssign Tensor.assignBuffer
  simp only [Tensor.chunkAt, mkShape_chunk0 hd, mkShape_chunk0 hs2, hdp, ok_bind, hn, lt_irrefl, if_false, pure_eq_ok,
    Int.toNat_natCast]
  rw [copyLoop_ok hb rfl src.data v2 (numel d2) (by simp; omega) (by omega)]
  · simp only [ok_bind, assignShape_mk hs2]
    rw [← hl2, List.take_length, List.drop_of_length_le (by simp; omega)]
    simp
  · rw [H2.2.2.1]; intro hc; cases hc; exact hpq rfl
  · intro j hj; exact Holds.read_block H2 rfl j hj

theorem copyAssign_grow [Zero R] {h : Heap R} {dst src : Tensor} {p q : Nat} {d1 d2 : List Int} {v1 v2 : List R}
    (hd : mkShape d1 = .ok dst.shape) (hdp : dst.data = some p)
    (hb : h.blocks[p]? = some ⟨v1.map some, true, true⟩)
    (H2 : HoldsAt h src q d2 v2) (hpq : p ≠ q) (hn : numel d1 < numel d2) :
    Tensor.copyAssign h dst src = .ok (⟨src.shape, some h.blocks.length⟩,
      ⟨h.blocks.set p ⟨v1.map some, true, false⟩ ++
        [⟨(v2.take (numel d1)).map some ++ List.replicate (numel d2 - numel d1) none, true, true⟩]⟩) := by
  have hs2 := H2.1
  have hl2 := H2.2.1
  unfold Tensor.copyAssign Tensor.assignBuffer
  have hlt : ((numel d1 : Nat) : Int) < ((numel d2 : Nat) : Int) := by omega
  simp only [Tensor.chunkAt, mkShape_chunk0 hd, mkShape_chunk0 hs2, hdp, ok_bind, hlt, if_true, pure_eq_ok,
    Int.toNat_natCast, Heap.deleteArr, hb, Heap.alloc, List.length_set]
  have hq : q < h.blocks.length := by
    obtain ⟨_, _, _, arr, h4⟩ := H2
    rw [List.getElem?_eq_some_iff] at h4; exact h4.1
  have hb2 : (⟨h.blocks.set p ⟨v1.map some, true, false⟩ ++ [⟨List.replicate (numel d2) none, true, true⟩]⟩ : Heap R).blocks[h.blocks.length]? =
      some ⟨List.replicate (numel d2) none, true, true⟩ := by
    rw [List.getElem?_append_right (by simp)]; simp
  rw [copyLoop_ok hb2 rfl src.data v2 (numel d1) (by simp; omega) (by omega)]
  · simp only [ok_bind, assignShape_mk hs2]
    have e : h.blocks.length = (h.blocks.set p ⟨v1.map some, true, false⟩).length := by simp
    congr 3
    rw [e, set_last]
    simp
  · rw [H2.2.2.1]; intro hc; cases hc; omega
  · intro j hj
    apply Holds.read_block H2
    rw [List.getElem?_append_left (by simpa using hq), List.getElem?_set_ne hpq]

theorem copyAssign_shrink [Zero R] {h : Heap R} {dst src : Tensor} {p q : Nat} {d1 d2 : List Int} {v1 v2 : List R} {arr : Bool}
    (hd : mkShape d1 = .ok dst.shape) (hdp : dst.data = some p) (hl1 : v1.length = numel d1)
    (hb : h.blocks[p]? = some ⟨v1.map some, arr, true⟩)
    (H2 : HoldsAt h src q d2 v2) (hpq : p ≠ q) (hn : numel d2 < numel d1) :
    Tensor.copyAssign h dst src = .error (.ub .outOfBounds) := by
  have hs2 := H2.1
  have hl2 := H2.2.1
  have hlt : ¬ ((numel d1 : Nat) : Int) < ((numel d2 : Nat) : Int) := by omega
  unfold Tensor.copyAssign Tensor.assignBuffer
  simp only [Tensor.chunkAt, mkShape_chunk0 hd, mkShape_chunk0 hs2, hdp, ok_bind, hlt, if_false, pure_eq_ok,
    Int.toNat_natCast]
  obtain ⟨_, _, h3, arr', h4⟩ := H2
  rw [h3, copyLoop_oob hb rfl h4 rfl v2 rfl (Ne.symm hpq) (numel d1) 0 (by omega) (by omega) (by simp; omega)]
  rfl

theorem copyAssign_null [Zero R] {h : Heap R} {dst src : Tensor} {q : Nat} {d1 d2 : List Int} {v2 : List R}
    (hd : mkShape d1 = .ok dst.shape) (hdp : dst.data = none)
    (H2 : HoldsAt h src q d2 v2) (hn : numel d1 ≤ numel d2) :
    Tensor.copyAssign h dst src = .ok (⟨src.shape, some h.blocks.length⟩,
      ⟨h.blocks ++ [⟨(v2.take (numel d1)).map some, true, true⟩]⟩) := by
  have hs2 := H2.1
  have hl2 := H2.2.1
  unfold Tensor.copyAssign Tensor.assignBuffer
  simp only [Tensor.chunkAt, mkShape_chunk0 hd, hdp, ok_bind, pure_eq_ok, Int.toNat_natCast, Heap.alloc]
  have hq : q < h.blocks.length := by
    obtain ⟨_, _, _, arr, h4⟩ := H2
    rw [List.getElem?_eq_some_iff] at h4; exact h4.1
  have hb2 : (⟨h.blocks ++ [⟨List.replicate (numel d1) (some 0), true, true⟩]⟩ : Heap R).blocks[h.blocks.length]? =
      some ⟨List.replicate (numel d1) (some 0), true, true⟩ := by simp
  rw [copyLoop_ok hb2 rfl src.data v2 (numel d1) (by simp) (by omega)]
  · simp only [ok_bind, assignShape_mk hs2, set_last]
    simp
  · rw [H2.2.2.1]; intro hc; cases hc; omega
  · intro j hj
    apply Holds.read_block H2
    rw [List.getElem?_append_left hq]

theorem copyAssign_null_shrink [Zero R] {h : Heap R} {dst src : Tensor} {q : Nat} {d1 d2 : List Int} {v2 : List R}
    (hd : mkShape d1 = .ok dst.shape) (hdp : dst.data = none)
    (H2 : HoldsAt h src q d2 v2) (hn : numel d2 < numel d1) :
    Tensor.copyAssign h dst src = .error (.ub .outOfBounds) := by
  have hs2 := H2.1
  have hl2 := H2.2.1
  unfold Tensor.copyAssign Tensor.assignBuffer
  simp only [Tensor.chunkAt, mkShape_chunk0 hd, hdp, ok_bind, pure_eq_ok, Int.toNat_natCast, Heap.alloc]
  have hq : q < h.blocks.length := by
    obtain ⟨_, _, _, arr, h4⟩ := H2
    rw [List.getElem?_eq_some_iff] at h4; exact h4.1
  have hb2 : (⟨h.blocks ++ [⟨List.replicate (numel d1) (some 0), true, true⟩]⟩ : Heap R).blocks[h.blocks.length]? =
      some ⟨List.replicate (numel d1) (some 0), true, true⟩ := by simp
  obtain ⟨_, _, h3, arr', h4⟩ := H2
  rw [h3, copyLoop_oob hb2 rfl (by rw [List.getElem?_append_left hq]; exact h4) rfl v2 rfl (by omega) (numel d1) 0
    (by omega) (by omega) (by simp)]
  rfl

/-- Self-copy of a buffer. -/
theorem copyLoop_self {h : Heap R} {p : Nat} {b : Block R} {vals : List R} (hb : h.blocks[p]? = some b) (hl : b.live = true)
    (hc : b.cells = vals.map some) (n i : Nat) (hn : i + n ≤ vals.length) :
    copyLoop (some p) (some p) n i h = .ok h := by
  induction n generalizing i with
  | zero => rfl
  | succ n ih =>
    unfold copyLoop
    have hi : i < vals.length := by omega
    have hr : h.read (some p) (i : Int) = .ok vals[i] := read_mk hb hl (by simp [hc, hi])
    have ha := access_ok hb hl (k := i) (by simp [hc]; omega)
    simp only [hr, Heap.write, ha, ok_bind]
    have hid : h.poke p i vals[i] = h := by
      unfold Heap.poke
      have : b.cells.set i (some vals[i]) = b.cells := by
        apply set_self; simp [hc, hi]
      cases h with
      | mk bl =>
        congr 1
        apply List.ext_getElem?
        intro j
        rw [List.getElem?_modify]
        by_cases hj : p = j
        · subst hj; rw [hb]; simp [this]
        · simp [hj]
    rw [hid]
    exact ih (i + 1) (by omega)

theorem selfAssign_ok [Zero R] {h : Heap R} {t : Tensor} {p : Nat} {dims : List Int} {v : List R} (H : HoldsAt h t p dims v) :
    Tensor.selfAssign h t = .ok (t, h) := by
  obtain ⟨h1, h2, h3, arr, h4⟩ := H
  unfold Tensor.selfAssign Tensor.assignBuffer
  simp only [Tensor.chunkAt, mkShape_chunk0 h1, h3, ok_bind, lt_irrefl, if_false, pure_eq_ok, Int.toNat_natCast]
  rw [copyLoop_self h4 rfl rfl (numel dims) 0 (by omega)]
  simp only [ok_bind, assignShape_mk h1]
  cases t; simp_all

theorem selfAssign_null [Zero R] {h : Heap R} {t : Tensor} {dims : List Int} (hs : mkShape dims = .ok t.shape)
    (hd : t.data = none) :
    Tensor.selfAssign h t = .ok (⟨t.shape, some h.blocks.length⟩,
      ⟨h.blocks ++ [⟨(List.replicate (numel dims) (0 : R)).map some, true, true⟩]⟩) := by
  unfold Tensor.selfAssign Tensor.assignBuffer
  simp only [Tensor.chunkAt, mkShape_chunk0 hs, hd, ok_bind, pure_eq_ok, Int.toNat_natCast, Heap.alloc]
  have hb2 : (⟨h.blocks ++ [⟨List.replicate (numel dims) (some 0), true, true⟩]⟩ : Heap R).blocks[h.blocks.length]? =
      some ⟨List.replicate (numel dims) (some 0), true, true⟩ := by simp
  rw [copyLoop_self (vals := List.replicate (numel dims) (0 : R)) hb2 rfl (by simp) (numel dims) 0 (by simp)]
  simp only [ok_bind, assignShape_mk hs, List.map_replicate]

end Nnet.Tensor
