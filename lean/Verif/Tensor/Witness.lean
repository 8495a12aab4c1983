import Verif.Tensor.PropsShape
import Verif.Tensor.PropsProgram
import Verif.Tensor.PropsSched
import Verif.Tensor.PropsFrame
import Verif.Tensor.PropsRed
/-!
# The hypotheses of the tensor theorems are met

Each `example` applies one theorem to concrete tensors, so that Lean checks that all its hypotheses hold together in a
non-trivial case. (More worked cases stand beside the theorems themselves.)
-/
namespace Nnet.Tensor

/-- A shape and its chunk table. -/
def exShape : TensorShape := ⟨[2, 3, 4], [24, 12, 4]⟩

/-! ## C01 - C03 -/

example := C01_chunk_table [2, 3, 4] exShape (by decide)
example := C01_out_of_range [2, 3, 4] exShape (by decide) 3 (by decide)
example := C01_out_of_range [2, 3, 4] exShape (by decide) (-1) (by decide)
example := C02_overflow_iff [65536, 65536] (by decide) ⟨65536, [65536], rfl, by decide, by decide⟩
example := C02_accepts_iff [2, 3, 4] (by decide)
example := C03_copy [2, 3, 4] exShape ⟨[7], [7]⟩ (by decide)

/-! ## C04, C05 -/

example := C04_zeros exHeap [2, 3, 4] exShape (by decide)
example := C04_ones exHeap [2, 3, 4] exShape (by decide)
example := C04_gaussian exHeap [2, 3, 4] exShape (by decide) (fun i => (i : Int) - 3)
example := C04_rejects exHeap [2, -3] .abort (by decide) (fun i => (i : Int))
example : ∃ t h', Holds (R := Int) h' exA [2, 2] [1, 2, 3, 4] ∧ exA.data ≠ t.data ∧ Fresh exHeap h' t [2, 3, 4] (List.replicate 24 0) := by
  obtain ⟨t, h', -, -, -, -, F⟩ := C04_zeros exHeap [2, 3, 4] exShape (by decide)
  have := C04_others_undisturbed exHeap h' t exA _ _ _ _ F ⟨0, exA_holds⟩
  exact ⟨t, h', this.1, this.2, F⟩
example := C05_eyes_abort exHeap (-2) (by decide)
example := C05_eyes_overflow exHeap 46341 (by decide) (by decide) (by decide)

/-! ## C06 - C11 -/

example := C06_deep_copy exHeap exA _ _ ⟨0, exA_holds⟩
example := C06_writes_independent exHeap ⟨exHeap.blocks.set 1 ⟨[some 5, some 60, some 7], true, true⟩⟩ exB exA 1 60 _ _
  (by decide) ⟨0, exA_holds⟩ (by decide)
example := C06_dataless_undefined exHeap ⟨⟨[0], [1]⟩, none⟩ [0] (by decide) rfl

/-- Two tensors of four elements, of different shapes. -/
def exHeap44 : Heap Int :=
  ⟨[⟨[some 1, some 2, some 3, some 4], true, true⟩, ⟨[some 5, some 6, some 7, some 8], true, true⟩]⟩
def exRow4 : Tensor := ⟨⟨[4], [4]⟩, some 1⟩
theorem exA44_holds : HoldsAt exHeap44 exA 0 [2, 2] [1, 2, 3, 4] := ⟨by decide, by decide, rfl, true, rfl⟩
theorem exRow4_holds : HoldsAt exHeap44 exRow4 1 [4] [5, 6, 7, 8] := ⟨by decide, by decide, rfl, true, rfl⟩

example := C07_copy_assign_partial exHeap44 exA exRow4 0 1 _ _ _ _ exA44_holds exRow4_holds (by decide) (by decide)
example := C07_self_assign exHeap exA 0 _ _ exA_holds
example := C07_self_assign_dataless exHeap ⟨⟨[0], [1]⟩, none⟩ [0] (by decide) rfl
example := C07_grow_indeterminate exHeap exC exA 2 0 [2] _ [8, 9] _ (by decide) rfl rfl exA_holds (by decide) (by decide)
example := C07_shrink_out_of_bounds exHeap exA exB 0 1 _ _ _ _ exA_holds exB_holds (by decide) (by decide)
example := C07_null_target exHeap ⟨⟨[0], [1]⟩, none⟩ exA 0 [0] _ _ (by decide) rfl exA_holds
example := C08_move_ctor exHeap exA _ _ ⟨0, exA_holds⟩
example := C08_dataless_undefined exHeap ⟨⟨[0], [1]⟩, none⟩ [0] (by decide) rfl
example := C09_move_assign_partial exHeap exB exA 0 _ _ exA_holds
/-- A heap with a block nobody owns: moving onto a default-constructed tensor adds no leak, the old one is still reported. -/
example := C09_no_leak_null_target exHeap ⟨⟨[0], [1]⟩, none⟩ exA ⟨⟨[2, 2], [4, 2]⟩, some 0⟩ ⟨⟨[2, 2], [4, 2]⟩, none⟩ [exB, exC] rfl
  (by decide) 3 ⟨⟨_, rfl, rfl⟩, by decide⟩
example := C09_leaks exHeap exA exB 0 1 _ _ _ _ exA_holds exB_holds (by decide) [exC, exS] (by decide)
example := C09_self_move_loses_data exHeap exA 0 _ _ exA_holds
example := C10_destroy_partial exHeap exA 0 _ rfl rfl
example := C10_destroy_dataless exHeap ⟨⟨[0], [1]⟩, none⟩ rfl
example : ∃ t h' h'', Fresh exHeap h' t [2, 2] [1, 2, 3, 4] ∧ t.destroy h' = .ok h'' := by
  obtain ⟨t, h', -, F, -⟩ := C06_deep_copy exHeap exA _ _ ⟨0, exA_holds⟩
  obtain ⟨h'', hd, -⟩ := C10_fresh_destroyable _ _ _ _ _ F
  exact ⟨t, h', h'', F, hd⟩
example := C11_reshape exHeap exA _ [1, 4] _ ⟨[1, 4], [4, 4]⟩ ⟨0, exA_holds⟩ (by decide) (by decide)
example := C11_reshape_abort exA [2, 2] [3] ⟨[3], [3]⟩ (by decide) (by decide) (by decide)
example := C11_reshape_invalid exA [2, -2] .abort (by decide)

/-! ## C12: the program `exProg` creates, adds, moves, multiplies, reads and destroys tensors -/

example (σ : Nat → Nat → Sched) := C12_no_leak σ exProg_arun
example (σ : Nat → Nat → Sched) := C12_programs σ 0 (h := ⟨[]⟩) (env := fun _ => none) (fun _ => rfl)
  (fun p b hb => by simp at hb) exProg_arun
/-- One step: the declaration `Tensor a = Eyes(2)` from nothing. -/
example (σ : Nat → Sched) := C12_step σ (h := (⟨[]⟩ : Heap Int)) (env := fun _ => none) (A := fun _ => none) (fun _ => rfl)
  (fun p b hb => by simp at hb) (.declDefault (x := 3) rfl)

/-! ## C13 - C17 -/

example (σ : Sched) := C13_sub σ exHeap exA exA _ _ _ ⟨0, exA_holds⟩ ⟨0, exA_holds⟩
example (σ : Sched) := C13_mul σ exHeap exA exA _ _ _ ⟨0, exA_holds⟩ ⟨0, exA_holds⟩
example (σ : Sched) := C13_div σ exHeap exA exA _ _ _ ⟨0, exA_holds⟩ ⟨0, exA_holds⟩
example (σ : Sched) := C13_pow σ exHeap exA exA _ _ _ ⟨0, exA_holds⟩ ⟨0, exA_holds⟩
example (σ : Sched) := C14_exact (fun x y : Int => x - y) σ exHeap3 exT222 exT2 [2, 2] [2] _ _ (by decide) exT222_holds exT2_holds
example := C14_indices_cover [2, 3, 4] (by decide) 17 (by decide)
example (σ : Sched) := C15_arith_rejects σ exHeap exA exB [2, 2] [3] (by decide) (by decide) (by
  intro h; have := List.suffix_iff_eq_drop.1 h; simp at this)
example (σ : Sched) := C15_pow_rejects σ exHeap exA exC [2, 2] [2] (by decide) (by decide) (by decide)
example (σ : Sched) := C15_equal_rank_partial σ exHeap exA exC [2, 2] [2] 1 (by decide) (by decide) (by decide)
example (σ : Sched) := C15_equal_accepts_mismatch σ exHeap exC exB [2] [3] _ _ ⟨2, exC_holds⟩ ⟨1, exB_holds⟩ (by decide) (by decide)
example (σ : Nat → Sched) := C15_matmul_rejects σ exHeap exA exB ⟨⟨[0], [1]⟩, none⟩ [2, 2] [3] (by decide) (by decide) (by
  rintro ⟨m, k, n, h1, h2, -⟩; simp at h2)
example (σ : Sched) := C16_unary_ops σ exHeap exA _ _ ⟨0, exA_holds⟩
example (σ : Sched) := C17_equal σ exHeap exA exA _ _ _ 3 1 (by decide) ⟨0, exA_holds⟩ ⟨0, exA_holds⟩
example (σ : Sched) := C17_negative_eps σ exHeap exA exA 3 (-1) (by decide)

/-! ## C18 - C20 -/

/-- A tensor without rows (one element). -/
def exHeap0 : Heap Int := ⟨[⟨[some 5], true, true⟩]⟩
def exNoRows : Tensor := ⟨⟨[0, 2], [1, 2]⟩, some 0⟩
theorem exNoRows_holds : Holds exHeap0 exNoRows [0, ((2 : Nat) : Int)] [5] := ⟨0, by decide, by decide, rfl, true, rfl⟩

example := C18_total exHeap exA _ _ ⟨0, exA_holds⟩
example (σ : Sched) := C18_axis1_no_rows σ exHeap0 exNoRows 2 _ 1 exNoRows_holds (by decide)
example (σ : Sched) := C18_rank σ exHeap exB [3] 0 (by decide) (by decide)
example (σ : Sched) := C18_axes_add_up σ exHeap exA 2 2 _ 1 ⟨0, exA_holds⟩ (by decide) (by decide)
example (σ : Sched) := C19_axis1 σ exHeap exA 2 2 _ 1 ⟨0, exA_holds⟩ (by decide) (by decide)
example (σ : Sched) := C19_axis1_no_rows σ exHeap0 exNoRows 2 _ 1 exNoRows_holds (by decide)
example (σ : Sched) := C20_axis0 σ exHeap exA 2 2 _ ⟨0, exA_holds⟩ (by decide)
example (σ : Sched) := C20_axis1 σ exHeap exA 2 2 _ 1 ⟨0, exA_holds⟩ (by decide) (by decide)
example (σ : Sched) := C20_rank σ exHeap exB [3] 0 (by decide) (by decide)

/-! ## C21, C22 -/

/-- `1x2`, `2x2` and `2x3` matrices, and larger and smaller output tensors. -/
def exHeapM : Heap Int := ⟨[⟨[some 1, some 2], true, true⟩, ⟨[some 1, some 2, some 3, some 4], true, true⟩,
  ⟨[some 1, some 2, some 3, some 4, some 5, some 6], true, true⟩, ⟨[some 0, some 0, some 0], true, true⟩, ⟨[some 9], true, true⟩,
  ⟨[some 9, some 9, some 9, some 9, some 9], true, true⟩]⟩
def ex12 : Tensor := ⟨⟨[1, 2], [2, 2]⟩, some 0⟩
def ex22 : Tensor := ⟨⟨[2, 2], [4, 2]⟩, some 1⟩
def ex23 : Tensor := ⟨⟨[2, 3], [6, 3]⟩, some 2⟩
def ex13 : Tensor := ⟨⟨[1, 3], [3, 3]⟩, some 3⟩
def ex1 : Tensor := ⟨⟨[1], [1]⟩, some 4⟩
def ex5 : Tensor := ⟨⟨[5], [5]⟩, some 5⟩
theorem ex12_holds : Holds exHeapM ex12 [((1 : Nat) : Int), ((2 : Nat) : Int)] [1, 2] := ⟨0, by decide, by decide, rfl, true, rfl⟩
theorem ex22_holds : Holds exHeapM ex22 [((2 : Nat) : Int), ((2 : Nat) : Int)] [1, 2, 3, 4] := ⟨1, by decide, by decide, rfl, true, rfl⟩
theorem ex23_holds : Holds exHeapM ex23 [((2 : Nat) : Int), ((3 : Nat) : Int)] [1, 2, 3, 4, 5, 6] :=
  ⟨2, by decide, by decide, rfl, true, rfl⟩
theorem ex13_holds : HoldsAt exHeapM ex13 3 [((1 : Nat) : Int), ((3 : Nat) : Int)] [0, 0, 0] := ⟨by decide, by decide, rfl, true, rfl⟩
theorem ex1_holds : HoldsAt exHeapM ex1 4 [1] [9] := ⟨by decide, by decide, rfl, true, rfl⟩
theorem ex5_holds : HoldsAt exHeapM ex5 5 [5] [9, 9, 9, 9, 9] := ⟨by decide, by decide, rfl, true, rfl⟩

example (σ : Nat → Sched) := C21_product σ exHeapM ex12 ex23 1 2 3 _ _ (by decide) (by decide) (by decide) (by decide) ex12_holds ex23_holds
example (σ : Nat → Sched) := C21_eyes_neutral σ exHeapM ex23 2 3 _ (by decide) (by decide) (by decide) (by decide) ex23_holds
example (σ : Nat → Nat → Sched) := C21_assoc σ exHeapM ex12 ex22 ex23 1 2 2 3 _ _ _ (by decide) (by decide) (by decide) (by decide)
  (by decide) (by decide) (by decide) ex12_holds ex22_holds ex23_holds
/-- A column of 65536 elements times a row of 65536 elements. -/
example (σ : Nat → Sched) := C21_overflow σ
  (⟨[⟨(List.replicate 65536 (1 : Int)).map some, true, true⟩]⟩ : Heap Int) ⟨⟨[65536, 1], [65536, 1]⟩, some 0⟩ ⟨⟨[1, 65536], [65536, 65536]⟩, some 0⟩
  65536 1 65536 (List.replicate 65536 1) (List.replicate 65536 1) (by decide) (by decide) (by decide) (by decide) (by decide) (by decide)
  ⟨0, by decide, by rw [List.length_replicate]; decide, rfl, true, rfl⟩ ⟨0, by decide, by rw [List.length_replicate]; decide, rfl, true, rfl⟩
example (σ : Nat → Sched) := (C22_matmul_partial σ exHeapM ex12 ex23 ⟨⟨[0], [1]⟩, none⟩ 1 2 3 _ _ (by decide) (by decide) (by decide)
  (by decide) ex12_holds ex23_holds).1 rfl
example (σ : Nat → Sched) := (C22_matmul_partial σ exHeapM ex12 ex23 ex13 1 2 3 _ _ (by decide) (by decide) (by decide)
  (by decide) ex12_holds ex23_holds).2 3 _ true ex13_holds rfl (by decide) (by decide)
example (σ : Nat → Sched) := C22_larger_keeps_shape σ exHeapM ex12 ex23 ex5 1 2 3 _ _ _ [5] 5 (by decide) (by decide) (by decide)
  (by decide) ex12_holds ex23_holds ex5_holds (by decide) (by decide) (by decide)
example (σ : Nat → Sched) := C22_smaller_leaks σ exHeapM ex12 ex23 ex1 1 2 3 _ _ _ [1] 4 (by decide) (by decide) (by decide)
  (by decide) ex12_holds ex23_holds ex1_holds (by decide)

/-! ## C23, C24 -/

theorem exA_in : ExistsIn exHeap exA := by intro p hp; cases hp; decide
theorem exB_in : ExistsIn exHeap exB := by intro p hp; cases hp; decide

/-- Two iterations: one stores the sum of two elements of block 0 in block 1, the other copies an element of block 2. -/
example := C23_interleavings
  [(⟨[⟨some 0, 0⟩, ⟨some 0, 1⟩], fun l => l.head?, ⟨some 1, 0⟩⟩ : Iter Int), ⟨[⟨some 2, 0⟩], fun l => l.head?, ⟨some 1, 1⟩⟩] exHeap
  (by decide)
example := C23_binary exHeap exA exB 1 exA_in exB_in
example := C23_unary exHeap exA 3 1 exA_in
example := C23_axis exHeap exA 1 exA_in
example := C23_matmul exHeap exA exB exC exA_in exB_in (by decide)
example (σ : Nat → Sched) : ∃ out h', matmulOp σ exHeapM ex12 ex23 = .ok (out, h') ∧ h'.blocks.length = 8 := by
  obtain ⟨out, h', v, he, -⟩ := C21_product σ exHeapM ex12 ex23 1 2 3 _ _ (by decide) (by decide) (by decide) (by decide) ex12_holds ex23_holds
  exact ⟨out, h', he, (C24_matmul σ _ _ _ _ _ he).2.1⟩

end Nnet.Tensor
