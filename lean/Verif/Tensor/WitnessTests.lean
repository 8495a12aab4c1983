import Verif.Tensor.PropsTests
import Mathlib.Algebra.Order.Ring.Rat
/-!
# Concrete cases of C84 and C85
-/
namespace Nnet.Tensor.WitnessTests

/-- Element functions for the rationals (only `ofInt` matters here). -/
instance : CMath Rat := ⟨id, id, id, fun x _ => x, fun x => max x (-x), fun i => (i : Rat)⟩

theorem ok2 : OkDims [2] := ⟨⟨2, [], rfl, by decide, by simp⟩, fun i => by
  match i with
  | 0 => decide
  | i + 1 => simp [intMax]⟩

theorem ok32 : OkDims [((3 : Nat) : Int), 2] := ⟨⟨3, [2], rfl, by decide, by simp⟩, fun i => by
  match i with
  | 0 => decide
  | 1 => decide
  | i + 2 => simp [intMax]⟩

/-- `Tensor a = Ones({2}); Tensor b = Zeros({2}); a = std::move(b); x = a[1]; a = std::move(a); ~b; ~a`: two buffers are lost. -/
def leaky : List (Cmd Rat) :=
  [.decl 0 (.ones [2]), .decl 1 (.zeros [2]), .moveAssign 0 1, .get 0 ((1 : Nat) : Int), .moveAssign 0 0, .destroy 1, .destroy 0]

theorem leaky_lrun : LRun (fun _ => none) (Prog.ofList leaky) [0] (fun _ => none) 2 := by
  refine LRun.declL rfl (.ones ok2) (LRun.declL rfl (.zeros ok2) ?_)
  refine LRun.silent (m := 1) (n := 1) (.moveAssign (d1 := [2]) (v1 := [1, 1]) (d2 := [2]) (v2 := [0, 0]) (by decide) rfl rfl) ?_
  refine LRun.value (m := 0) (n := 1) (.clean (.get (d := [2]) (v := [0, 0]) rfl rfl)) ?_
  refine LRun.silent (m := 1) (n := 0) (.moveSelf (d := [2]) (v := [0, 0]) rfl) ?_
  refine LRun.silent (m := 0) (n := 0) (.clean (.destroy (a := .empty [2]) rfl)) ?_
  refine LRun.silent (m := 0) (n := 0) (.clean (.destroy (a := .empty [2]) rfl)) ?_
  have : ∀ A : AEnv Rat, A = (fun _ => none) → LRun A (Prog.ofList []) [] (fun _ => none) 0 := by rintro _ rfl; exact .done
  refine this _ (funext fun x => ?_)
  simp only [Function.update_apply]
  split_ifs <;> rfl

example (σ : Nat → Nat → Sched) := C84_lost σ leaky_lrun
example (σ : Nat → Nat → Sched) := C84_programs σ 0 (L := []) (h := ⟨[]⟩) (env := fun _ => none) (fun _ => rfl)
  (exactOwners_iff.1 (fun p b hb => by simp at hb)) leaky_lrun

example := C85_argmax (R := Rat) 1024 (by decide) (by decide) 10 (by norm_num)
example := C85_argmin (R := Rat) 1024 (by decide) (by decide) 10 (by norm_num)
example := C85_reduce_sum (R := Rat) 64 (by decide) (by decide) 64
example := C85_reduce_mean (R := Rat) 64 (by decide) (by decide) 64 (fun _ => rfl)
example := C85_equal (R := Rat) 63 (by decide) (by decide)
example := C85_scalar_ops (R := Rat) [2] ok2 (fun i => i) 3
example := C85_tensor_ops (R := Rat) _ ok32 (fun i => i) (fun i => i + 1)
example := C85_broadcast_ops (R := Rat) 3 (by decide) [2] ok32 ok2 (fun i => i) (fun i => i + 1)
example := C85_math_ops (R := Rat) _ ok32 (fun i => i) 10
example := C85_negate (R := Rat) _ ok32 (fun i => i)
example := C85_fill (R := Rat) _ ok32
example := C85_eyes (R := Rat) 600 (by decide) (by decide)
example := C85_matmul (R := Rat) 3 2 2 (by decide) (by decide) (by decide) ok32 ⟨⟨2, [2], rfl, by decide, by simp⟩, fun i => by
  match i with
  | 0 => decide
  | 1 => decide
  | i + 2 => simp [intMax]⟩ (by decide) (fun i => i) (fun i => i + 1)

end Nnet.Tensor.WitnessTests
