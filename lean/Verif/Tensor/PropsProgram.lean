import Verif.Tensor.Program
/-!
# C12: memory safety and value semantics of whole programs
-/
namespace Nnet.Tensor
variable {R : Type}

/-- One variable has the value `oa`. -/
def Rep (h : Heap R) (ot : Option Tensor) : Option (AVal R) → Prop
  | none => ot = none
  | some (.data d v) => ∃ t p, ot = some t ∧ mkShape d = .ok t.shape ∧ v.length = numel d ∧ t.data = some p ∧
        h.blocks[p]? = some ⟨v.map some, true, true⟩
  | some (.empty d) => ∃ t, ot = some t ∧ mkShape d = .ok t.shape ∧ t.data = none

theorem sameValues_iff {h : Heap R} {env : Env} {A : AEnv R} : SameValues h env A ↔ ∀ x, Rep h (env x) (A x) := by
  unfold SameValues
  refine forall_congr' fun x => ?_
  unfold Rep
  split <;> rename_i hx <;> rw [hx]

theorem Rep.mono {h h' : Heap R} {ot : Option Tensor} {oa : Option (AVal R)} (H : Rep h ot oa)
    (hk : ∀ t p, ot = some t → t.data = some p → h'.blocks[p]? = h.blocks[p]?) : Rep h' ot oa := by
  match oa, H with
  | none, H => exact H
  | some (.data d v), ⟨t, p, h1, h2, h3, h4, h5⟩ => exact ⟨t, p, h1, h2, h3, h4, (hk t p h1 h4).trans h5⟩
  | some (.empty d), H => exact H

theorem Rep.live {h : Heap R} {ot : Option Tensor} {oa : Option (AVal R)} (H : Rep h ot oa) {t : Tensor} {p : Nat}
    (ht : ot = some t) (hp : t.data = some p) : ∃ b, h.blocks[p]? = some b ∧ b.live = true ∧ b.isArray = true := by
  match oa, H with
  | none, H => rw [show ot = none from H] at ht; cases ht
  | some (.data d v), ⟨t', p', h1, h2, h3, h4, h5⟩ =>
    rw [h1] at ht; cases ht; rw [h4] at hp; cases hp; exact ⟨_, h5, rfl, rfl⟩
  | some (.empty d), ⟨t', h1, h2, h3⟩ => rw [h1] at ht; cases ht; rw [h3] at hp; cases hp

theorem exactOwners_iff {h : Heap R} {env : Env} : ExactOwners h env ↔ OwnersBut [] h env :=
  ⟨fun H => ⟨List.nodup_nil, fun _ hp => by simp at hp, fun p b hb hl _ => H p b hb hl⟩, fun H p b hb hl => H.2.2 p b hb hl (by simp)⟩

/-- Both halves of the invariant; the buffers `L` have been lost. -/
def Rel (L : List Nat) (h : Heap R) (env : Env) (A : AEnv R) : Prop := SameValues h env A ∧ OwnersBut L h env

theorem Rel.rep {L : List Nat} {h : Heap R} {env : Env} {A : AEnv R} (H : Rel L h env A) (x : Nat) : Rep h (env x) (A x) := sameValues_iff.1 H.1 x

theorem Rel.unique {L : List Nat} {h : Heap R} {env : Env} {A : AEnv R} (H : Rel L h env A) {x y : Nat} {t u : Tensor} {p : Nat}
    (hx : env x = some t) (hy : env y = some u) (htp : t.data = some p) (hup : u.data = some p) : x = y := by
  obtain ⟨b, hb, hl, -⟩ := (H.rep x).live hx htp
  exact (H.2.2.2 p b hb hl (fun hL => (H.2.2.1 p hL).2 x t hx htp)).unique ⟨t, hx, htp⟩ ⟨u, hy, hup⟩

/-- A lost buffer is never the buffer of a variable. -/
theorem Rel.notLost {L : List Nat} {h : Heap R} {env : Env} {A : AEnv R} (H : Rel L h env A) {x : Nat} {t : Tensor} {p : Nat}
    (hx : env x = some t) (hp : t.data = some p) : p ∉ L := fun hL => (H.2.2.1 p hL).2 x t hx hp

theorem Rel.owner {L : List Nat} {h : Heap R} {env : Env} {A : AEnv R} (H : Rel L h env A) {p : Nat} {b : Block R}
    (hb : h.blocks[p]? = some b) (hl : b.live = true) : p ∈ L ∨ ∃ y u, env y = some u ∧ u.data = some p := by
  by_cases hL : p ∈ L
  · exact Or.inl hL
  · obtain ⟨y, ⟨u, hu, hup⟩, -⟩ := H.2.2.2 p b hb hl hL
    exact Or.inr ⟨y, u, hu, hup⟩

theorem Rel.dataOf {L : List Nat} {h : Heap R} {env : Env} {A : AEnv R} (H : Rel L h env A) {x : Nat} {d : List Int} {v : List R}
    (hx : A x = some (.data d v)) : ∃ t p, env x = some t ∧ mkShape d = .ok t.shape ∧ v.length = numel d ∧ t.data = some p ∧
        h.blocks[p]? = some ⟨v.map some, true, true⟩ := by
  have := H.rep x; rw [hx] at this; exact this

theorem Rel.emptyOf {L : List Nat} {h : Heap R} {env : Env} {A : AEnv R} (H : Rel L h env A) {x : Nat} {d : List Int}
    (hx : A x = some (.empty d)) : ∃ t, env x = some t ∧ mkShape d = .ok t.shape ∧ t.data = none := by
  have := H.rep x; rw [hx] at this; exact this

theorem Rel.holds {L : List Nat} {h : Heap R} {env : Env} {A : AEnv R} (H : Rel L h env A) {x : Nat} {d : List Int} {v : List R}
    (hx : A x = some (.data d v)) : ∃ t, env x = some t ∧ env.look x = .ok t ∧ Holds h t d v := by
  obtain ⟨t, p, h1, h2, h3, h4, h5⟩ := H.dataOf hx
  exact ⟨t, h1, by simp [Env.look, h1], p, h2, h3, h4, true, h5⟩

theorem Rel.update {L : List Nat} {h h' : Heap R} {env : Env} {A : AEnv R} (H : Rel L h env A) (x : Nat) (ot : Option Tensor) (oa : Option (AVal R))
    (hrep : Rep h' ot oa)
    (hkeep : ∀ y u p, y ≠ x → env y = some u → u.data = some p → h'.blocks[p]? = h.blocks[p]?)
    (hnew : ∀ t p, ot = some t → t.data = some p → p ∉ L ∧ ∀ y u, y ≠ x → env y = some u → u.data ≠ some p)
    (hlost : ∀ p ∈ L, h'.blocks[p]? = h.blocks[p]?)
    (hlive : ∀ p b, h'.blocks[p]? = some b → b.live = true → p ∈ L ∨ (∃ t, ot = some t ∧ t.data = some p) ∨
      (∃ y u, y ≠ x ∧ env y = some u ∧ u.data = some p)) :
    Rel L h' (Function.update env x ot) (Function.update A x oa) := by
  refine ⟨sameValues_iff.2 fun y => ?_, H.2.1, fun p hp => ⟨by rw [hlost p hp]; exact (H.2.2.1 p hp).1, fun y t ht htp => ?_⟩,
    fun p b hb hl hL => ?_⟩
  · by_cases hy : y = x
    · subst hy; simpa using hrep
    · rw [Function.update_of_ne hy, Function.update_of_ne hy]
      exact (H.rep y).mono (fun t p ht hp => hkeep y t p hy ht hp)
  · by_cases hy : y = x
    · subst hy; rw [Function.update_self] at ht; exact (hnew t p ht htp).1 hp
    · rw [Function.update_of_ne hy] at ht; exact (H.2.2.1 p hp).2 y t ht htp
  · have uniq : ∀ y z, (∃ t, Function.update env x ot y = some t ∧ t.data = some p) →
        (∃ t, Function.update env x ot z = some t ∧ t.data = some p) → y = z := by
      rintro y z ⟨t, ht, htp⟩ ⟨u, hu, hup⟩
      by_cases hy : y = x <;> by_cases hz : z = x
      · rw [hy, hz]
      · subst hy; rw [Function.update_self] at ht; rw [Function.update_of_ne hz] at hu
        exact absurd hup ((hnew t p ht htp).2 z u hz hu)
      · subst hz; rw [Function.update_self] at hu; rw [Function.update_of_ne hy] at ht
        exact absurd htp ((hnew u p hu hup).2 y t hy ht)
      · rw [Function.update_of_ne hy] at ht; rw [Function.update_of_ne hz] at hu
        exact H.unique ht hu htp hup
    rcases hlive p b hb hl with hL' | ⟨t, ht, htp⟩ | ⟨y, u, hy, hu, hup⟩
    · exact absurd hL' hL
    · have hw : ∃ t, Function.update env x ot x = some t ∧ t.data = some p := ⟨t, by simpa using ht, htp⟩
      exact ⟨x, hw, fun z hz => uniq z x hz hw⟩
    · have hw : ∃ t, Function.update env x ot y = some t ∧ t.data = some p :=
        ⟨u, by rw [Function.update_of_ne hy]; exact hu, hup⟩
      exact ⟨y, hw, fun z hz => uniq z y hz hw⟩

/-- The heap only grew: by the block of a new tensor, possibly followed by released ones. -/
def Grown (h h' : Heap R) (t : Tensor) (d : List Int) (v : List R) : Prop :=
  mkShape d = .ok t.shape ∧ v.length = numel d ∧ t.data = some h.blocks.length ∧
    ∃ dead, h'.blocks = h.blocks ++ ⟨v.map some, true, true⟩ :: dead ∧ ∀ b ∈ dead, b.live = false

theorem Fresh.grown {h h' : Heap R} {t : Tensor} {d : List Int} {v : List R} (H : Fresh h h' t d v) : Grown h h' t d v :=
  ⟨H.1, H.2.1, H.2.2.1, [], H.2.2.2, by simp⟩

theorem lt_of_get {α : Type _} {l : List α} {p : Nat} {a : α} (h : l[p]? = some a) : p < l.length := by
  rw [List.getElem?_eq_some_iff] at h; exact h.1

/-- Variable `x`, which owns no buffer, gets a new tensor. -/
theorem Rel.grow {L : List Nat} {h h' : Heap R} {env : Env} {A : AEnv R} (H : Rel L h env A) {x : Nat} {t : Tensor} {d : List Int} {v : List R}
    (hx : ∀ u, env x = some u → u.data = none) (G : Grown h h' t d v) :
    Rel L h' (Function.update env x (some t)) (Function.update A x (some (.data d v))) := by
  obtain ⟨g1, g2, g3, dead, g4, g5⟩ := G
  have own_lt : ∀ y u p, env y = some u → u.data = some p → p < h.blocks.length := fun y u p hy hp => by
    obtain ⟨b, hb, -⟩ := (H.rep y).live hy hp; exact lt_of_get hb
  have lost_lt : ∀ p ∈ L, p < h.blocks.length := fun p hp => by obtain ⟨⟨b, hb, -⟩, -⟩ := H.2.2.1 p hp; exact lt_of_get hb
  refine H.update x (some t) _ ⟨t, h.blocks.length, rfl, g1, g2, g3, by simp [g4]⟩ ?_ ?_
    (fun p hp => by rw [g4, List.getElem?_append_left (lost_lt p hp)]) ?_
  · intro y u p hy hu hp
    rw [g4, List.getElem?_append_left (own_lt y u p hu hp)]
  · intro t' p ht hp
    cases ht
    rw [g3] at hp; cases hp
    exact ⟨fun hL => absurd (lost_lt _ hL) (lt_irrefl _), fun y u hy hu hup => absurd (own_lt y u _ hu hup) (lt_irrefl _)⟩
  · intro p b hb hl
    rw [g4] at hb
    by_cases hp : p < h.blocks.length
    · rw [List.getElem?_append_left hp] at hb
      rcases H.owner hb hl with hL | ⟨y, u, hu, hup⟩
      · exact Or.inl hL
      refine Or.inr (Or.inr ⟨y, u, ?_, hu, hup⟩)
      rintro rfl; rw [hx u hu] at hup; cases hup
    · rw [List.getElem?_append_right (by omega)] at hb
      by_cases hp0 : p = h.blocks.length
      · refine Or.inr (Or.inl ?_); exact ⟨t, rfl, by rw [g3, hp0]⟩
      · obtain ⟨k, hk⟩ : ∃ k, p - h.blocks.length = k + 1 := ⟨p - h.blocks.length - 1, by omega⟩
        rw [hk, List.getElem?_cons_succ] at hb
        rw [g5 b (List.mem_of_getElem? hb)] at hl; cases hl

/-- Only the reported shape and the elements of the buffer of `x` change. -/
theorem Rel.rewrite {L : List Nat} {h : Heap R} {env : Env} {A : AEnv R} (H : Rel L h env A) {x : Nat} {t t' : Tensor} {p : Nat} {d : List Int}
    {v w : List R} (hx : env x = some t) (hp : t.data = some p) (hp' : t'.data = some p) (hs : mkShape d = .ok t'.shape)
    (hl : v.length = numel d) (h' : Heap R) (hb : h'.blocks = h.blocks.set p ⟨v.map some, true, true⟩)
    (hw : w = v) :
    Rel L h' (Function.update env x (some t')) (Function.update A x (some (.data d w))) := by
  subst hw
  have hlt : p < h.blocks.length := by obtain ⟨b, hb, -⟩ := (H.rep x).live hx hp; exact lt_of_get hb
  refine H.update x (some t') _ ⟨t', p, rfl, hs, hl, hp', by rw [hb]; simp [hlt]⟩ ?_ ?_
    (fun q hq => by rw [hb, List.getElem?_set_ne (show p ≠ q from fun e => H.notLost hx hp (e ▸ hq))]) ?_
  · intro y u q hy hu hq
    have : p ≠ q := fun e => hy (H.unique hu hx hq (e ▸ hp))
    rw [hb, List.getElem?_set_ne this]
  · intro u q hu hq
    cases hu; rw [hp'] at hq; cases hq
    exact ⟨H.notLost hx hp, fun y w hy hw hwq => hy (H.unique hw hx hwq hp)⟩
  · intro q b hq hbl
    by_cases e : p = q
    · exact Or.inr (Or.inl ⟨t', rfl, by rw [hp', e]⟩)
    · rw [hb, List.getElem?_set_ne e] at hq
      rcases H.owner hq hbl with hL | ⟨y, u, hu, huq⟩
      · exact Or.inl hL
      refine Or.inr (Or.inr ⟨y, u, ?_, hu, huq⟩)
      rintro rfl; rw [hx] at hu; cases hu; rw [hp] at huq; cases huq; exact e rfl

theorem okDims_mk {d : List Int} (h : OkDims d) : ∃ s, mkShape d = .ok s := ⟨_, mkShape_ok h.1 h.2⟩

theorem bestOf_eq [Zero R] (better : R → R → Bool) (l : List R) : (pickBest better l).getD 0 = bestOf better l := by
  cases l <;> rfl

theorem broadcastVals_simple [Zero R] (f : R → R → R) {pre d2 : List Int} {v1 v2 : List R}
    (hr : pre.length ≤ 1) (h1 : v1.length = numel (pre ++ d2)) (h2 : 0 < v2.length) :
    broadcastVals f pre d2 v1 v2 = (List.range v1.length).map (fun i => f (v1.getD i 0) (v2.getD (i % v2.length) 0)) := by
  have hw : written pre d2 = numel (pre ++ d2) := by
    unfold written; have : pre.length - 1 = 0 := by omega
    rw [this, List.drop_zero]
  unfold broadcastVals
  rw [hw, h1]
  apply List.map_congr_left
  intro j hj
  have hj' : j < numel (pre ++ d2) := List.mem_range.1 hj
  have hm : j % v2.length < v2.length := Nat.mod_lt _ h2
  have hj1 : j < v1.length := by omega
  simp [hj', List.getElem?_eq_getElem, hm, hj1]

theorem holds_pos {h : Heap R} {t : Tensor} {d : List Int} {v : List R} (H : Holds h t d v) : 0 < v.length := by
  rw [H.len]; exact numel_pos (mkShape_ok_imp H.mk).1

theorem arith_call [Zero R] (f : R → R → R) (σ : Sched) {h : Heap R} {t1 t2 : Tensor} {d1 d2 : List Int} {v1 v2 : List R}
    (H1 : Holds h t1 d1 v1) (H2 : Holds h t2 d2 v2) (hd : d1 = d2 ∨ ∃ n, d1 = n :: d2) :
    ∃ out h', broadcastOp f σ h t1 t2 = .ok (out, h') ∧
      Fresh h h' out d1 ((List.range v1.length).map (fun i => f (v1.getD i 0) (v2.getD (i % v2.length) 0))) := by
  have : ∃ pre : List Int, d1 = pre ++ d2 ∧ pre.length ≤ 1 := by
    rcases hd with rfl | ⟨n, rfl⟩
    · exact ⟨[], rfl, by simp⟩
    · exact ⟨[n], rfl, by simp⟩
  obtain ⟨pre, rfl, hr⟩ := this
  obtain ⟨out, h', e, F⟩ := broadcastOp_ok f σ H1 H2 (Or.inl hr)
  rw [broadcastVals_simple f hr H1.len (holds_pos H2)] at F
  exact ⟨out, h', e, F⟩

theorem vals_eq_prodVals [Zero R] [Add R] [Mul R] {m k n : Nat} {v1 v2 vals : List R} (hl1 : vals.length = m * n)
   (hv : ∀ i < m, ∀ j < n, vals[i * n + j]? =
        some ((List.range k).foldl (fun acc l => acc + v1.getD (i * k + l) 0 * v2.getD (l * n + j) 0) 0)) : vals = prodVals m k n v1 v2 := by
      apply list_eq_grid hl1 (prodVals_length _ _ _ _ _)
      intro i hi j hj
      rw [prodVals_getD hi hj, List.getD_eq_getElem?_getD, hv i hi j hj, Option.getD_some, dotSpec]

theorem matmulOp_grown [Zero R] [Add R] [Mul R] (σ : Nat → Sched) {h : Heap R} {t1 t2 : Tensor} {m k n : Nat} {v1 v2 : List R}
    (hm : 0 < m) (hk : 0 < k) (hn : 0 < n) (hint : IsInt ((m : Int) * n))
    (H1 : Holds h t1 [(m : Int), (k : Int)] v1) (H2 : Holds h t2 [(k : Int), (n : Int)] v2) :
    ∃ out h', matmulOp σ h t1 t2 = .ok (out, h') ∧ Holds h' out [(m : Int), (n : Int)] (prodVals m k n v1 v2) ∧
     out.data = some h.blocks.length ∧
      h'.blocks = h.blocks ++ [⟨(prodVals m k n v1 v2).map some, true, true⟩, ⟨(prodVals m k n v1 v2).map some, true, false⟩] := by
    obtain ⟨out, h', vals, e, hh, hv, ho, hb⟩ := C21_product σ h t1 t2 m k n v1 v2 hm hk hn hint H1 H2
    have hl1 : vals.length = m * n := by rw [hh.len, numel2 hm hn]
    have := vals_eq_prodVals hl1 hv
    subst this
    exact ⟨out, h', e, hh, ho, hb⟩

section
variable [Zero R] [One R] [Add R] [Sub R] [Mul R] [Div R] [Neg R] [CMath R] [BEq R] [LT R] [LE R]
  [DecidableRel (α := R) (· < ·)] [DecidableRel (α := R) (· ≤ ·)]

theorem col_length {v : List R} {r c j : Nat} : (col v r c j).length = r := by simp [col]
theorem row_length {v : List R} {c i : Nat} : (row v c i).length = c := by simp [row]

theorem cols_int {h : Heap R} {t : Tensor} {r c : Nat} {v : List R} (H : Holds h t [(r : Int), (c : Int)] v) (hr : 0 < r) :
    (c : Int) ≤ intMax := by
  have := (mkShape2 H.mk).2.2
  exact le_int hr (by push_cast; exact this)

theorem call_matmul (σ : Nat → Sched) {h : Heap R} {env : Env} {y z : Nat} {t1 t2 : Tensor} (hl : env.look y = .ok t1) (hl' : env.look z = .ok t2) :
   (Rhs.matmul y z : Rhs R).call σ h env = matmulOp σ h t1 t2 := by
  show (env.look y >>= fun t1 => env.look z >>= fun t2 => matmulOp σ h t1 t2) = _
  rw [hl, ok_bind, hl', ok_bind]

/-- Every initialiser whose preconditions hold succeeds, with the specified value, in one new buffer. -/
theorem call_ok (σ : Nat → Sched) {L : List Nat} {h : Heap R} {env : Env} {A : AEnv R} (H : Rel L h env A) {e : Rhs R} {d : List Int} {v : List R}
    (M : Means A e d v) : ∃ t h', e.call σ h env = .ok (t, h') ∧ Grown h h' t d v := by
  cases M with
  | zeros hd =>
    obtain ⟨s, hs⟩ := okDims_mk hd
    obtain ⟨t, h', -, e, -, -, F⟩ := C04_zeros h d s hs
    exact ⟨t, h', e, F.grown⟩
  | ones hd =>
    obtain ⟨s, hs⟩ := okDims_mk hd
    obtain ⟨t, h', -, e, F⟩ := C04_ones h d s hs
    exact ⟨t, h', e, F.grown⟩
  | gaussian hd =>
    obtain ⟨s, hs⟩ := okDims_mk hd
    obtain ⟨t, h', -, e, F⟩ := C04_gaussian h d s hs _
    exact ⟨t, h', e, F.grown⟩
  | @eyes n hn hd =>
    have hint : ((n * n : Nat) : Int) ≤ intMax := by
      have := hd.2 0; simp only [List.drop_zero, List.prod_cons, List.prod_nil, mul_one] at this; push_cast; exact this
    obtain ⟨t, h', e, F⟩ := eyes_ok h n hn hint
    exact ⟨t, h', e, F.grown⟩
  | copy hy =>
    obtain ⟨u, hu, hl, K⟩ := H.holds hy
    obtain ⟨t, h', e, F, -⟩ := C06_deep_copy h u d v K
    exact ⟨t, h', by simp [Rhs.call, hl, e], F.grown⟩
  | move hy =>
    obtain ⟨u, hu, hl, K⟩ := H.holds hy
    obtain ⟨t, h', e, F, -⟩ := C08_move_ctor h u d v K
    exact ⟨t, h', by simp [Rhs.call, hl, e], F.grown⟩
  | @arith o y z d1 d2 v1 v2 hy hz hd =>
    obtain ⟨u, hu, hl, K⟩ := H.holds hy
    obtain ⟨w, hw, hl', K'⟩ := H.holds hz
    obtain ⟨t, h', e, F⟩ := arith_call o.fn (σ 0) K K' hd
    refine ⟨t, h', ?_, F.grown⟩
    simp only [Rhs.call, hl, hl', ok_bind]
    cases o <;> exact e
  | @fn2 o y z d v1 v2 hy hz hpre =>
    obtain ⟨u, hu, hl, K⟩ := H.holds hy
    obtain ⟨w, hw, hl', K'⟩ := H.holds hz
    simp only [Rhs.call, hl, hl', ok_bind]
    cases o with
    | pow => obtain ⟨t, h', e, F⟩ := C13_pow (σ 0) h u w d v1 v2 K K'; exact ⟨t, h', e, F.grown⟩
    | eq => obtain ⟨⟨t, h', e, F⟩, -⟩ := C17_eq (σ 0) h u w d v1 v2 0 K K'; exact ⟨t, h', e, F.grown⟩
    | equal eps => obtain ⟨⟨t, h', e, F⟩, -⟩ := C17_equal (σ 0) h u w d v1 v2 0 eps hpre K K'; exact ⟨t, h', e, F.grown⟩
  | @fn1 o y d v hy hpre =>
    obtain ⟨u, hu, hl, K⟩ := H.holds hy
    simp only [Rhs.call, hl, ok_bind]
    cases o with
    | addS x => obtain ⟨t, h', e, F⟩ := (C16_scalar_ops (σ 0) h u d v x K).1; exact ⟨t, h', e, F.grown⟩
    | subS x => obtain ⟨t, h', e, F⟩ := (C16_scalar_ops (σ 0) h u d v x K).2.1; exact ⟨t, h', e, F.grown⟩
    | mulS x => obtain ⟨t, h', e, F⟩ := (C16_scalar_ops (σ 0) h u d v x K).2.2.1; exact ⟨t, h', e, F.grown⟩
    | divS x => obtain ⟨t, h', e, F⟩ := (C16_scalar_ops (σ 0) h u d v x K).2.2.2.1; exact ⟨t, h', e, F.grown⟩
    | powS x => obtain ⟨t, h', e, F⟩ := (C16_scalar_ops (σ 0) h u d v x K).2.2.2.2; exact ⟨t, h', e, F.grown⟩
    | neg => obtain ⟨t, h', e, F⟩ := (C16_unary_ops (σ 0) h u d v K).1; exact ⟨t, h', e, F.grown⟩
    | exp => obtain ⟨t, h', e, F⟩ := (C16_unary_ops (σ 0) h u d v K).2.1; exact ⟨t, h', e, F.grown⟩
    | log => obtain ⟨t, h', e, F⟩ := (C16_unary_ops (σ 0) h u d v K).2.2.1; exact ⟨t, h', e, F.grown⟩
    | sqrt => obtain ⟨t, h', e, F⟩ := (C16_unary_ops (σ 0) h u d v K).2.2.2; exact ⟨t, h', e, F.grown⟩
    | eqS x => obtain ⟨-, ⟨t, h', e, F⟩⟩ := C17_eq (σ 0) h u u d v v x K K; exact ⟨t, h', e, F.grown⟩
    | equalS x eps => obtain ⟨-, ⟨t, h', e, F⟩⟩ := C17_equal (σ 0) h u u d v v x eps hpre K K; exact ⟨t, h', e, F.grown⟩
  | @red0 k y v r c hy hr =>
    obtain ⟨u, hu, hl, K⟩ := H.holds hy
    have hc := cols_int K hr
    simp only [Rhs.call, hl, ok_bind]
    cases k with
    | sum => obtain ⟨t, h', e, F⟩ := reduceAxis0_ok (fun acc _ => acc) (σ 0) K hc; exact ⟨t, h', e, F.grown⟩
    | mean =>
      obtain ⟨t, h', e, F⟩ := reduceAxis0_ok (fun acc n => acc / CMath.ofInt n) (σ 0) K hc
      refine ⟨t, h', e, ?_⟩
      simpa only [Red.line, col_length] using F.grown
    | argmax =>
      obtain ⟨t, h', e, F⟩ := argAxis0_ok (fun val cur => decide (cur < val)) (σ 0) K hr
      simp only [bestOf_eq] at F; exact ⟨t, h', e, F.grown⟩
    | argmin =>
      obtain ⟨t, h', e, F⟩ := argAxis0_ok (fun val cur => decide (val < cur)) (σ 0) K hr
      simp only [bestOf_eq] at F; exact ⟨t, h', e, F.grown⟩
  | @red1 k y v axis r c hy hr ha =>
    obtain ⟨u, hu, hl, K⟩ := H.holds hy
    simp only [Rhs.call, hl, ok_bind]
    cases k with
    | sum => obtain ⟨t, h', e, F⟩ := reduceAxis1_ok (fun acc _ => acc) (σ 0) K hr axis ha; exact ⟨t, h', e, F.grown⟩
    | mean =>
      obtain ⟨t, h', e, F⟩ := reduceAxis1_ok (fun acc n => acc / CMath.ofInt n) (σ 0) K hr axis ha
      refine ⟨t, h', e, ?_⟩
      simpa only [Red.line, row_length] using F.grown
    | argmax =>
      obtain ⟨t, h', e, F⟩ := argAxis1_ok (fun val cur => decide (cur < val)) (σ 0) K hr axis ha
      simp only [bestOf_eq] at F; exact ⟨t, h', e, F.grown⟩
    | argmin =>
      obtain ⟨t, h', e, F⟩ := argAxis1_ok (fun val cur => decide (val < cur)) (σ 0) K hr axis ha
      simp only [bestOf_eq] at F; exact ⟨t, h', e, F.grown⟩
  | @matmul y z v1 v2 m k n hy hz hm hk hn hint =>
    obtain ⟨u, hu, hl, K⟩ := H.holds hy
    obtain ⟨w, hw, hl', K'⟩ := H.holds hz
    rw [call_matmul σ hl hl']
    obtain ⟨out, h', e, hh, ho, hb⟩ := matmulOp_grown σ hm hk hn hint K K'
    refine ⟨out, h', e, hh.mk, hh.len, ho, [⟨(prodVals m k n v1 v2).map some, true, false⟩], hb, fun b hb => ?_⟩
    rw [List.mem_singleton] at hb; rw [hb]

omit [Zero R] [One R] [Add R] [Sub R] [Mul R] [Div R] [Neg R] [CMath R] [BEq R] [LT R] [LE R]
  [DecidableRel (α := R) (· < ·)] [DecidableRel (α := R) (· ≤ ·)] in
theorem Rel.addDead {L : List Nat} {h h' : Heap R} {env : Env} {A : AEnv R} (H : Rel L h env A) {dead : List (Block R)}
    (hb : h'.blocks = h.blocks ++ dead) (hd : ∀ b ∈ dead, b.live = false) : Rel L h' env A := by
  have own_lt : ∀ y u p, env y = some u → u.data = some p → p < h.blocks.length := fun y u p hy hp => by
    obtain ⟨b, hb, -⟩ := (H.rep y).live hy hp; exact lt_of_get hb
  refine ⟨sameValues_iff.2 fun y => (H.rep y).mono fun t p ht hp => ?_, H.2.1, fun p hp => ?_, fun p b hpb hl hL => ?_⟩
  · rw [hb, List.getElem?_append_left (own_lt y t p ht hp)]
  · obtain ⟨⟨b, hpb, hl⟩, ho⟩ := H.2.2.1 p hp
    exact ⟨⟨b, by rw [hb, List.getElem?_append_left (lt_of_get hpb)]; exact hpb, hl⟩, ho⟩
  · rw [hb] at hpb
    by_cases hp : p < h.blocks.length
    · rw [List.getElem?_append_left hp] at hpb; exact H.2.2.2 p b hpb hl hL
    · rw [List.getElem?_append_right (by omega)] at hpb
      rw [hd b (List.mem_of_getElem? hpb)] at hl; cases hl

omit [Zero R] [One R] [Add R] [Sub R] [Mul R] [Div R] [Neg R] [CMath R] [BEq R] [LT R] [LE R]
  [DecidableRel (α := R) (· < ·)] [DecidableRel (α := R) (· ≤ ·)] in
theorem reshape_ok {t : Tensor} {d1 d2 : List Int} (h1 : mkShape d1 = .ok t.shape) (hd : OkDims d2) (hn : numel d1 = numel d2) :
    ∃ t', t.reshapeDims d2 = .ok t' ∧ mkShape d2 = .ok t'.shape ∧ t'.data = t.data := by
  obtain ⟨s, hs⟩ := okDims_mk hd
  refine ⟨⟨s, t.data⟩, ?_, hs, rfl⟩
  have c1 : s.chunkAt 0 = .ok (numel d2 : Int) := mkShape_chunk0 hs
  have c2 : t.chunkAt 0 = .ok (numel d2 : Int) := by rw [← hn]; exact mkShape_chunk0 h1
  unfold Tensor.reshapeDims Tensor.reshape
  simp only [hs, ok_bind, c1, c2, assignShape_mk hs t.shape, pure_eq_ok]
  rw [assertC_true trivial]
  rfl

/-- A statement whose preconditions hold succeeds, produces the specified number, and loses no buffer. -/
theorem step_ok (σ : Nat → Sched) {L : List Nat} {h : Heap R} {env : Env} {A A' : AEnv R} {c : Cmd R} {o : Option R}
    (H : Rel L h env A) (S : AStep c A o A') :
    ∃ h' env', c.exec σ h env = .ok (o, h', env') ∧ Rel L h' env' A' := by
  cases S with
  | @decl x e A d v hx M =>
    obtain ⟨t, h', he, G⟩ := call_ok σ H M
    refine ⟨h', _, by simp only [Cmd.exec, he, ok_bind]; rfl, H.grow (fun u hu => ?_) G⟩
    have := H.rep x; rw [hx] at this; rw [show env x = none from this] at hu; cases hu
  | @declDefault x A hx =>
    have hs : mkShape [0] = .ok ⟨[0], [1]⟩ := by decide
    have hn : env x = none := by have := H.rep x; rw [hx] at this; exact this
    refine ⟨h, _, by simp only [Cmd.exec, Tensor.mkDefault, hs, ok_bind, pure_eq_ok] <;> rfl,
      H.update x (some ⟨⟨[0], [1]⟩, none⟩) _ ⟨_, rfl, hs, rfl⟩ (fun _ _ _ _ _ _ => rfl) (fun t p ht hp => by cases ht; cases hp) (fun _ _ => rfl) (fun p b hb hl => ?_)⟩
    rcases H.owner hb hl with hL | ⟨y, u, hu, hup⟩
    · exact Or.inl hL
    refine Or.inr (Or.inr ⟨y, u, ?_, hu, hup⟩)
    rintro rfl; rw [hn] at hu; cases hu
  | @destroy x A a hx =>
    match a, hx with
    | .empty d, hx =>
      obtain ⟨t, ht, hs, hd⟩ := H.emptyOf hx
      refine ⟨h, Function.update env x none, by simp [Cmd.exec, Env.look, ht, Tensor.destroy, hd],
        H.update x none none rfl (fun _ _ _ _ _ _ => rfl) (fun t p ht => by cases ht) (fun _ _ => rfl) (fun p b hb hl => ?_)⟩
      rcases H.owner hb hl with hL | ⟨y, u, hu, hup⟩
      · exact Or.inl hL
      refine Or.inr (Or.inr ⟨y, u, ?_, hu, hup⟩)
      rintro rfl; rw [ht] at hu; cases hu; rw [hd] at hup; cases hup
    | .data d v, hx =>
      obtain ⟨t, p, ht, hs, hl, hp, hb⟩ := H.dataOf hx
      refine ⟨⟨h.blocks.set p ⟨v.map some, true, false⟩⟩, Function.update env x none,
        by simp [Cmd.exec, Env.look, ht, Tensor.destroy, hp, Heap.deleteArr, hb],
        H.update x none none rfl (fun y u q hy hu hq => ?_) (fun t p ht => by cases ht)
        (fun q hq => by simp [List.getElem?_set_ne (show p ≠ q from fun e => H.notLost ht hp (e ▸ hq))]) (fun q b hq hbl => ?_)⟩
      · have : p ≠ q := fun e => hy (H.unique hu ht hq (e ▸ hp))
        simp [List.getElem?_set_ne this]
      · by_cases e : p = q
        · subst e; simp [lt_of_get hb] at hq; subst hq; cases hbl
        · simp only [List.getElem?_set_ne e] at hq
          rcases H.owner hq hbl with hL | ⟨y, u, hu, hup⟩
          · exact Or.inl hL
          refine Or.inr (Or.inr ⟨y, u, ?_, hu, hup⟩)
          rintro rfl; rw [ht] at hu; cases hu; rw [hp] at hup; cases hup; exact e rfl
  | @assignSelf x _ d v hx =>
    obtain ⟨t, p, ht, hs, hl, hp, hb⟩ := H.dataOf hx
    have := selfAssign_ok (h := h) (t := t) (p := p) (dims := d) (v := v) ⟨hs, hl, hp, true, hb⟩
    refine ⟨h, env, ?_, H⟩
    simp only [Cmd.exec, Env.look, ht, ok_bind, if_true, this, pure_eq_ok]
    rw [← ht, Function.update_eq_self]
  | @assignSelfEmpty x A d hx =>
    obtain ⟨t, ht, hs, hd⟩ := H.emptyOf hx
    obtain ⟨w, h', e, -, F⟩ := C07_self_assign_dataless h t d hs hd
    refine ⟨h', _, by simp only [Cmd.exec, Env.look, ht, ok_bind, if_true, e, pure_eq_ok] <;> rfl, H.grow (fun u hu => ?_) F.grown⟩
    rw [ht] at hu; cases hu; exact hd
  | @moveSelfEmpty x _ d hx =>
    obtain ⟨t, ht, hs, hd⟩ := H.emptyOf hx
    refine ⟨h, env, ?_, H⟩
    simp only [Cmd.exec, Env.look, ht, ok_bind, if_true, Tensor.selfMoveAssign, assignShape_mk hs, pure_eq_ok]
    have : (⟨t.shape, none⟩ : Tensor) = t := by cases t; simp_all
    rw [this, ← ht, Function.update_eq_self]
  | @assign x y A d1 v1 d2 v2 hxy hx hy hn =>
    obtain ⟨t, p, ht, hs, hl, hp, hb⟩ := H.dataOf hx
    obtain ⟨u, q, hu, hs2, hl2, hq, hb2⟩ := H.dataOf hy
    have hpq : p ≠ q := fun e => hxy (H.unique ht hu hp (e ▸ hq))
    have := copyAssign_same (h := h) hs hp hl hb ⟨hs2, hl2, hq, true, hb2⟩ hpq hn
    refine ⟨_, _, by simp only [Cmd.exec, Env.look, ht, hu, ok_bind, hxy, if_false, this, pure_eq_ok] <;> rfl, ?_⟩
    exact H.rewrite (t' := ⟨u.shape, some p⟩) ht hp rfl hs2 hl2 _ rfl rfl
  | @assignEmpty x y A d1 d2 v2 hxy hx hy hn =>
    obtain ⟨t, ht, hs, hd⟩ := H.emptyOf hx
    obtain ⟨u, q, hu, hs2, hl2, hq, hb2⟩ := H.dataOf hy
    obtain ⟨w, h', e, F⟩ := (C07_null_target h t u q d1 d2 v2 hs hd ⟨hs2, hl2, hq, true, hb2⟩).1 hn
    refine ⟨h', _, by simp only [Cmd.exec, Env.look, ht, hu, ok_bind, hxy, if_false, e, pure_eq_ok] <;> rfl, H.grow (fun u hu => ?_) F.grown⟩
    rw [ht] at hu; cases hu; exact hd
  | @moveAssign x y A d1 d2 v2 hxy hx hy =>
    obtain ⟨t, ht, hs, hd⟩ := H.emptyOf hx
    obtain ⟨u, q, hu, hs2, hl2, hq, hb2⟩ := H.dataOf hy
    refine ⟨h, _, by simp only [Cmd.exec, Env.look, ht, hu, ok_bind, hxy, if_false, Tensor.moveAssign, assignShape_mk hs2,
      pure_eq_ok] <;> rfl, sameValues_iff.2 fun z => ?_, H.2.1, fun p hp => ⟨(H.2.2.1 p hp).1, fun z w hw hwp => ?_⟩, fun p b hb hl hL => ?_⟩
    · by_cases hz : z = y
      · subst hz; rw [Function.update_self, Function.update_self]; exact ⟨_, rfl, hs2, rfl⟩
      · rw [Function.update_of_ne hz, Function.update_of_ne hz]
        by_cases hzx : z = x
        · subst hzx; rw [Function.update_self, Function.update_self]; exact ⟨_, q, rfl, hs2, hl2, hq, hb2⟩
        · rw [Function.update_of_ne hzx, Function.update_of_ne hzx]; exact H.rep z
    · by_cases hz : z = y
      · subst hz; rw [Function.update_self] at hw; cases hw; cases hwp
      · rw [Function.update_of_ne hz] at hw
        by_cases hzx : z = x
        · subst hzx; rw [Function.update_self] at hw; cases hw; exact H.notLost hu hwp hp
        · rw [Function.update_of_ne hzx] at hw; exact H.notLost hw hwp hp
    · obtain ⟨z, ⟨w, hw, hwp⟩, huniq⟩ := H.2.2.2 p b hb hl hL
      by_cases hz : z = y
      · subst hz; rw [hu] at hw; cases hw
        refine ⟨x, ⟨⟨u.shape, u.data⟩, by rw [Function.update_of_ne hxy, Function.update_self], hwp⟩, ?_⟩
        rintro z' ⟨w', hw', hwp'⟩
        by_cases e1 : z' = z
        · subst e1; rw [Function.update_self] at hw'; cases hw'; cases hwp'
        · by_contra e2
          rw [Function.update_of_ne e1, Function.update_of_ne e2] at hw'
          exact e1 (huniq z' ⟨w', hw', hwp'⟩)
      · have hzx : z ≠ x := by rintro rfl; rw [ht] at hw; cases hw; rw [hd] at hwp; cases hwp
        refine ⟨z, ⟨w, by rw [Function.update_of_ne hz, Function.update_of_ne hzx]; exact hw, hwp⟩, ?_⟩
        rintro z' ⟨w', hw', hwp'⟩
        by_cases e1 : z' = y
        · subst e1; rw [Function.update_self] at hw'; cases hw'; cases hwp'
        · rw [Function.update_of_ne e1] at hw'
          by_cases e2 : z' = x
          · subst e2; rw [Function.update_self] at hw'; cases hw'
            exact absurd (H.unique hw hu hwp hwp') hz
          · rw [Function.update_of_ne e2] at hw'
            exact huniq z' ⟨w', hw', hwp'⟩
  | @reshape x A d1 v d2 hx hd hn =>
    obtain ⟨t, p, ht, hs, hl, hp, hb⟩ := H.dataOf hx
    obtain ⟨t', e, hs', hd'⟩ := reshape_ok hs hd hn
    refine ⟨h, _, by simp only [Cmd.exec, Env.look, ht, ok_bind, e, pure_eq_ok] <;> rfl, ?_⟩
    exact H.rewrite ht hp (hd'.trans hp) hs' (hl.trans hn) h (set_self hb).symm rfl
  | @reshapeEmpty x A d1 d2 hx hd hn =>
    obtain ⟨t, ht, hs, hd0⟩ := H.emptyOf hx
    obtain ⟨t', e, hs', hd'⟩ := reshape_ok hs hd hn
    refine ⟨h, _, by simp only [Cmd.exec, Env.look, ht, ok_bind, e, pure_eq_ok] <;> rfl,
      H.update x _ _ ⟨t', rfl, hs', hd'.trans hd0⟩ (fun _ _ _ _ _ _ => rfl)
        (fun t p ht hp => by cases ht; rw [hd', hd0] at hp; cases hp) (fun _ _ => rfl) (fun p b hb hl => ?_)⟩
    rcases H.owner hb hl with hL | ⟨y, u, hu, hup⟩
    · exact Or.inl hL
    refine Or.inr (Or.inr ⟨y, u, ?_, hu, hup⟩)
    rintro rfl; rw [ht] at hu; cases hu; rw [hd0] at hup; cases hup
  | @set x A d v a i hx hi =>
    obtain ⟨t, p, ht, hs, hl, hp, hb⟩ := H.dataOf hx
    have ha := access_ok hb rfl (k := i) (by simpa using hi)
    refine ⟨h.poke p i a, env, by simp [Cmd.exec, Env.look, ht, Tensor.set, hp, Heap.write, ha], ?_⟩
    have := H.rewrite (h' := h.poke p i a) (v := v.set i a) ht hp hp hs (by simpa using hl) ?_ rfl
    · rwa [← ht, Function.update_eq_self] at this
    · unfold Heap.poke
      apply List.ext_getElem?
      intro j
      rw [List.getElem?_modify, List.getElem?_set]
      by_cases e : p = j
      · subst e; rw [hb, if_pos rfl, if_pos (lt_of_get hb), List.map_set]; simp
      · simp [e]
  | @get x _ d v a i hx hi =>
    obtain ⟨t, ht, -, K⟩ := H.holds hx
    exact ⟨h, env, by simp [Cmd.exec, Env.look, ht, Tensor.get, K.read hi], H⟩
  | @sum x _ d v hx =>
    obtain ⟨t, ht, -, K⟩ := H.holds hx
    exact ⟨h, env, by simp [Cmd.exec, Env.look, ht, C18_total h t d v K], H⟩
  | @mean x _ d v hx =>
    obtain ⟨t, ht, -, K⟩ := H.holds hx
    exact ⟨h, env, by simp [Cmd.exec, Env.look, ht, C19_total h t d v K], H⟩
  | @matmulInto x y z A a v1 v2 m k n hx hdim hxy hxz hy hz hm hk hn hint =>
    obtain ⟨t1, ht1, -, K1⟩ := H.holds hy
    obtain ⟨t2, ht2, -, K2⟩ := H.holds hz
    match a, hx, hdim with
    | .empty d, hx, hdim =>
      obtain ⟨t, ht, hs, hd⟩ := H.emptyOf hx
      obtain ⟨h1, out, ret, h', e, F1, F2⟩ := (C22_matmul_partial σ h t1 t2 t m k n v1 v2 hm hk hn hint K1 K2).1 hd
      obtain ⟨h2, e2, hb2⟩ := C10_fresh_destroyable h1 h' ret _ _ F2
      refine ⟨h2, _, by simp only [Cmd.exec, Env.look, ht, ht1, ht2, ok_bind, e, e2, pure_eq_ok] <;> rfl, ?_⟩
      refine H.grow (fun u hu => ?_) ⟨F1.1, F1.2.1, F1.2.2.1, _, by rw [hb2, F1.2.2.2, List.append_assoc]; rfl, by simp⟩
      rw [ht] at hu; cases hu; exact hd
    | .data d w, hx, hdim =>
      have hd := hdim d w rfl
      subst hd
      obtain ⟨t, p, ht, hs, hl, hp, hb⟩ := H.dataOf hx
      have q1 : t1.data ≠ some p := fun e => hxy (H.unique ht ht1 hp e)
      have q2 : t2.data ≠ some p := fun e => hxz (H.unique ht ht2 hp e)
      obtain ⟨ret, h', e, F, -⟩ := (C22_matmul_partial σ h t1 t2 t m k n v1 v2 hm hk hn hint K1 K2).2 p w true
        ⟨hs, hl, hp, true, hb⟩ hb q1 q2
      obtain ⟨h2, e2, hb2⟩ := C10_fresh_destroyable _ h' ret _ _ F
      refine ⟨h2, _, by simp only [Cmd.exec, Env.look, ht, ht1, ht2, ok_bind, e, e2, pure_eq_ok] <;> rfl, ?_⟩
      refine Rel.addDead (H.rewrite ht hp hp hs (by rw [prodVals_length, numel2 hm hn]) _ rfl rfl) hb2 (by simp)

/-- **C12**, one statement: in every state where each variable has the value the specification says and every buffer has exactly
one owner, a statement whose preconditions hold succeeds, produces the specified number, and leads to such a state again. -/
theorem C12_step (σ : Nat → Sched) {h : Heap R} {env : Env} {A A' : AEnv R} {c : Cmd R} {o : Option R}
    (hv : SameValues h env A) (ho : ExactOwners h env) (S : AStep c A o A') :
    ∃ h' env', c.exec σ h env = .ok (o, h', env') ∧ SameValues h' env' A' ∧ ExactOwners h' env' := by
  obtain ⟨h', env', e, hv', ho'⟩ := step_ok σ ⟨hv, exactOwners_iff.1 ho⟩ S
  exact ⟨h', env', e, hv', exactOwners_iff.2 ho'⟩

/-- **C12**: every program that meets the listed preconditions (`ARun`) runs, under every schedule of every parallel loop, without
undefined behaviour, abort or exception; it reads exactly the numbers the value semantics predicts; at the end every variable has
the predicted dimensions and elements and every allocated buffer is owned by exactly one tensor. -/
theorem C12_programs (σ : Nat → Nat → Sched) (s : Nat) {h : Heap R} {env : Env} {A A' : AEnv R} {p : Prog R} {os : List R}
    (hv : SameValues h env A) (ho : ExactOwners h env) (hr : ARun A p os A') :
    ∃ h' env', p.run σ s h env = .ok (os, h', env') ∧ SameValues h' env' A' ∧ ExactOwners h' env' := by
  induction hr generalizing s h env with
  | done => exact ⟨h, env, rfl, hv, ho⟩
  | op S _ ih =>
    obtain ⟨h1, env1, e1, hv1, ho1⟩ := C12_step (σ s) hv ho S
    obtain ⟨h2, env2, e2, hv2, ho2⟩ := ih (s + 1) hv1 ho1
    exact ⟨h2, env2, by simp [Prog.run, e1, e2], hv2, ho2⟩

/-- **C12**, from the start: the empty memory with no variables is such a state. A program that has destroyed all its tensors
at its end has released all memory it ever allocated. -/
theorem C12_no_leak (σ : Nat → Nat → Sched) {p : Prog R} {os : List R} (hr : ARun (fun _ => none) p os (fun _ => none)) :
    ∃ h', p.run σ 0 ⟨[]⟩ (fun _ => none) = .ok (os, h', fun _ => none) ∧ ∀ b ∈ h'.blocks, b.live = false := by
  obtain ⟨h', env', e, hv, ho⟩ := C12_programs σ 0 (h := ⟨[]⟩) (env := fun _ => none) (fun _ => rfl)
    (fun p b hb => by simp at hb) hr
  have he : env' = fun _ => none := funext fun x => hv x
  subst he
  refine ⟨h', e, fun b hb => ?_⟩
  obtain ⟨p, hp⟩ := List.getElem?_of_mem hb
  by_contra hl
  obtain ⟨x, ⟨t, ht, -⟩, -⟩ := ho p b hp (by simpa using hl)
  cases ht

end

/-- A program: `Tensor x = Eyes(2); Tensor y = Ones({2}); Tensor z = x + y; Tensor w; w = move(z); n = w[3]; Tensor v = w % x;`
then, if `n` is 2, `m = reduce_sum(v);`, and then the destructors. -/
def exProg : Prog Int :=
  .op (.decl 0 (.eyes 2)) fun _ => .op (.decl 1 (.ones [2])) fun _ => .op (.decl 2 (.arith .add 0 1)) fun _ =>
  .op (.declDefault 3) fun _ => .op (.moveAssign 3 2) fun _ => .op (.get 3 3) fun n => .op (.decl 4 (.matmul 3 0)) fun _ =>
  .op (if n = some 2 then .sum 4 else .destroy 4) fun _ =>
  .op (.destroy 4) fun _ => .op (.destroy 3) fun _ => .op (.destroy 2) fun _ => .op (.destroy 1) fun _ => .op (.destroy 0) fun _ => .done

/-- The hypotheses of C12 are met by this program. -/
theorem exProg_arun : ARun (fun _ => none) exProg [2, 6] (fun _ => none) := by
  have okd2 : OkDims [2] := ⟨⟨2, [], rfl, by decide, by simp⟩, fun i => by
    match i with
    | 0 => decide
    | i + 1 => simp [intMax]⟩
  have okd22 : OkDims [((2 : Nat) : Int), ((2 : Nat) : Int)] := ⟨⟨2, [2], rfl, by decide, by simp⟩, fun i => by
    match i with
    | 0 => decide
    | 1 => decide
    | i + 2 => simp [intMax]⟩
  refine .op (os := [2, 6]) (.decl rfl (.eyes (n := 2) (by decide) okd22)) ?_
  rw [show (List.range (2 * 2)).map (fun p => if p / 2 = p % 2 then (1 : Int) else 0) = [1, 0, 0, 1] from rfl]
  refine .op (os := [2, 6]) (.decl rfl (.ones okd2)) ?_
  rw [show List.replicate (numel [2]) (1 : Int) = [1, 1] from rfl]
  refine .op (os := [2, 6]) (.decl rfl (.arith (d1 := [2, 2]) (d2 := [2]) (v1 := [1, 0, 0, 1]) (v2 := [1, 1]) rfl rfl (Or.inr ⟨2, rfl⟩))) ?_
  rw [show (List.range ([1, 0, 0, 1] : List Int).length).map (fun i => Arith.fn .add (([1, 0, 0, 1] : List Int).getD i 0)
    (([1, 1] : List Int).getD (i % ([1, 1] : List Int).length) 0)) = [2, 1, 1, 2] from rfl]
  refine .op (os := [2, 6]) (.declDefault rfl) ?_
  refine .op (os := [2, 6]) (.moveAssign (d1 := [0]) (d2 := [2, 2]) (v2 := [2, 1, 1, 2]) (by decide) rfl rfl) ?_
  refine .op (o := some 2) (os := [6]) (.get (d := [2, 2]) (v := [2, 1, 1, 2]) (i := 3) rfl rfl) ?_
  refine .op (os := [6]) (.decl rfl (.matmul (m := 2) (k := 2) (n := 2) (v1 := [2, 1, 1, 2]) (v2 := [1, 0, 0, 1]) rfl rfl
    (by decide) (by decide) (by decide) (by decide))) ?_
  rw [show prodVals 2 2 2 ([2, 1, 1, 2] : List Int) [1, 0, 0, 1] = [2, 1, 1, 2] from rfl]
  rw [if_pos rfl]
  refine .op (o := some 6) (os := []) (.sum (d := [2, 2]) (v := [2, 1, 1, 2]) rfl) ?_
  refine .op (os := []) (.destroy (a := .data [2, 2] [2, 1, 1, 2]) rfl) ?_
  refine .op (os := []) (.destroy (a := .data [2, 2] [2, 1, 1, 2]) rfl) ?_
  refine .op (os := []) (.destroy (a := .empty [2, 2]) rfl) ?_
  refine .op (os := []) (.destroy (a := .data [2] [1, 1]) rfl) ?_
  refine .op (os := []) (.destroy (a := .data [2, 2] [1, 0, 0, 1]) rfl) ?_
  have : ∀ A : AEnv Int, A = (fun _ => none) → ARun A .done [] (fun _ => none) := by rintro _ rfl; exact .done
  refine this _ (funext fun x => ?_)
  simp only [Function.update_apply]
  by_cases h0 : x = 0 <;> by_cases h1 : x = 1 <;> by_cases h2 : x = 2 <;> by_cases h3 : x = 3 <;> by_cases h4 : x = 4 <;> simp [*]

end Nnet.Tensor
