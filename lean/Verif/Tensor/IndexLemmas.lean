import Verif.Tensor.ShapeLemmas
import Mathlib.Tactic.Linarith
import Mathlib.Tactic.Ring
namespace Nnet.Tensor

theorem isIndex_pos {dims : List Int} {is : List Nat} (h : IsIndex dims is) : ∀ d ∈ dims, 0 < d := by
  induction dims generalizing is with
  | nil => simp
  | cons d ds ih =>
    cases is with
    | nil => exact h.elim
    | cons i is =>
      intro x hx
      rcases List.mem_cons.1 hx with rfl | hx
      · have := h.1; omega
      · exact ih h.2 x hx

theorem flatIndex_lt {dims : List Int} {is : List Nat} (h : IsIndex dims is) : flatIndex dims is < dims.prod.toNat := by
  induction dims generalizing is with
  | nil => simp [flatIndex]
  | cons d ds ih =>
    cases is with
    | nil => exact h.elim
    | cons i is =>
      have h1 := ih h.2
      have h2 := h.1
      have hp := prod_pos' (isIndex_pos h.2)
      simp only [flatIndex, List.prod_cons]
      rw [Int.toNat_mul (by omega) hp.le]
      have : i + 1 ≤ d.toNat := by omega
      calc i * ds.prod.toNat + flatIndex ds is < i * ds.prod.toNat + ds.prod.toNat := by omega
        _ = (i + 1) * ds.prod.toNat := by rw [Nat.add_mul, Nat.one_mul]
        _ ≤ d.toNat * ds.prod.toNat := Nat.mul_le_mul_right _ this

theorem isIndex_drop {pre d2 : List Int} {is : List Nat} (h : IsIndex (pre ++ d2) is) : IsIndex d2 (is.drop pre.length) := by
  induction pre generalizing is with
  | nil => simpa using h
  | cons d ds ih =>
    cases is with
    | nil => exact h.elim
    | cons i is => simpa using ih h.2

theorem flatIndex_mod {pre d2 : List Int} {is : List Nat} (h : IsIndex (pre ++ d2) is) :
    flatIndex (pre ++ d2) is % d2.prod.toNat = flatIndex d2 (is.drop pre.length) := by
  induction pre generalizing is with
  | nil => simpa using Nat.mod_eq_of_lt (flatIndex_lt h)
  | cons d ds ih =>
    cases is with
    | nil => exact h.elim
    | cons i is =>
      have hpos := isIndex_pos h.2
      simp only [List.cons_append, flatIndex, List.length_cons, List.drop_succ_cons]
      rw [← ih h.2, List.prod_append,
        Int.toNat_mul (prod_nonneg' (fun x hx => (hpos x (List.mem_append_left _ hx)).le))
          (prod_nonneg' (fun x hx => (hpos x (List.mem_append_right _ hx)).le)),
        ← Nat.mul_assoc, Nat.mul_add_mod_self_right]

/-- Every position of a non-empty tensor is the position of exactly one multi-index: existence. -/
theorem flatIndex_surj {dims : List Int} (hp : ∀ d ∈ dims, 0 < d) (k : Nat) (hk : k < dims.prod.toNat) :
    ∃ is, IsIndex dims is ∧ flatIndex dims is = k := by
  induction dims generalizing k with
  | nil => exact ⟨[], trivial, by simp at hk; simp [flatIndex, hk]⟩
  | cons d ds ih =>
    have hd : 0 < d := hp d (by simp)
    have hds : ∀ x ∈ ds, 0 < x := fun x hx => hp x (by simp [hx])
    have hpp := prod_pos' hds
    rw [List.prod_cons, Int.toNat_mul hd.le hpp.le] at hk
    have hm : 0 < ds.prod.toNat := by omega
    obtain ⟨is, h1, h2⟩ := ih hds (k % ds.prod.toNat) (Nat.mod_lt _ hm)
    refine ⟨(k / ds.prod.toNat) :: is, ⟨?_, h1⟩, ?_⟩
    · have := Nat.div_lt_of_lt_mul (by rw [Nat.mul_comm] at hk; exact hk)
      omega
    · simp only [flatIndex, h2]
      rw [Nat.mul_comm]; exact Nat.div_add_mod _ _

end Nnet.Tensor
