/-!
# Outcomes of C++ code and C `int` arithmetic

A modelled C++ call ends normally, aborts in `assert`, throws, or has undefined behaviour. Undefined
behaviour is a distinct outcome that nothing in the model recovers from.
-/
namespace Nnet

/-- Kinds of undefined behaviour the modelled code can run into. -/
inductive UB where
  | nullDeref | outOfBounds | uninitRead | useAfterFree | doubleFree | mismatchedDelete
  | signedOverflow | vectorIndex | divByZero | dataRace
  deriving DecidableEq, Repr

/-- Ways for a modelled call not to return. `abort` is a failed `assert` (`<cassert>`, Debug build:
CMakeLists.txt:3), `throw` a C++ exception raised by Armadillo, `fuel` an artefact of bounded executors
that is proved never to occur. -/
inductive Stop where
  | abort | throw | ub (u : UB) | fuel
  deriving DecidableEq, Repr

/-- Result of a modelled call. -/
abbrev Res (α : Type _) := Except Stop α

instance {α : Type _} [DecidableEq α] : DecidableEq (Res α)
  | .ok a, .ok b => if h : a = b then isTrue (h ▸ rfl) else isFalse (fun e => h (by cases e; rfl))
  | .error a, .error b => if h : a = b then isTrue (h ▸ rfl) else isFalse (fun e => h (by cases e; rfl))
  | .ok _, .error _ => isFalse (fun e => by cases e)
  | .error _, .ok _ => isFalse (fun e => by cases e)

@[simp] theorem ok_bind {α β : Type _} (a : α) (f : α → Res β) : ((Except.ok a : Res α) >>= f) = f a := rfl
@[simp] theorem error_bind {α β : Type _} (e : Stop) (f : α → Res β) :
    ((Except.error e : Res α) >>= f) = .error e := rfl
@[simp] theorem pure_eq_ok {α : Type _} (a : α) : (pure a : Res α) = .ok a := rfl

/-- `assert(p)`. -/
def assertC (p : Prop) [Decidable p] : Res Unit := if p then .ok () else .error .abort

/-- Largest and smallest value of a 32-bit `int`. -/
def intMax : Int := 2147483647
def intMin : Int := -2147483648

/-- `n` is representable as a C `int`. -/
def IsInt (n : Int) : Prop := intMin ≤ n ∧ n ≤ intMax

instance (n : Int) : Decidable (IsInt n) := inferInstanceAs (Decidable (_ ∧ _))

/-- Result of an `int` addition, subtraction or multiplication whose mathematical value is `n`: signed overflow
is undefined behaviour. -/
def cint (n : Int) : Res Int := if IsInt n then .ok n else .error (.ub .signedOverflow)

/-- `std::vector<T>::operator[](i)`: no bounds check, so out of range is undefined behaviour. -/
def vecAt {α : Type _} (l : List α) (i : Int) : Res α :=
  if 0 ≤ i then
    match l[i.toNat]? with
    | some v => .ok v
    | none => .error (.ub .vectorIndex)
  else .error (.ub .vectorIndex)

end Nnet
