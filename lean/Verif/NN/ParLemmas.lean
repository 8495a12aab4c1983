import Verif.NN.Par
import Verif.NN.PoolLemmas
import Verif.NN.TrainLemmas
/-!
# Interleavings of the OpenMP loops of the layers
-/
namespace Nnet.NN
open Finset
noncomputable section

/-- Effect of an action on the element it accesses. -/
def MAct.eff : MAct → ℝ → ℝ
  | .add _ v, x => x + v
  | .set _ v, _ => v

/-- Effect of a sequence of actions on the element `l`. -/
def effAt (l : Loc) : List MAct → ℝ → ℝ
  | [], x => x
  | a :: as, x => effAt l as (if a.loc = l then a.eff x else x)

theorem effAt_append (l : Loc) : ∀ (as bs : List MAct) (x : ℝ), effAt l (as ++ bs) x = effAt l bs (effAt l as x)
  | [], _, _ => rfl
  | a :: as, bs, x => effAt_append l as bs _

theorem effAt_none {l : Loc} : ∀ {as : List MAct} (x : ℝ), (∀ a ∈ as, a.loc ≠ l) → effAt l as x = x
  | [], _, _ => rfl
  | a :: as, x, h => by
    unfold effAt
    rw [if_neg (h a (by simp))]
    exact effAt_none x (fun b hb => h b (by simp [hb]))

/-- Effect of the rest of an iteration on the element `l`. -/
def Th.effAt (l : Loc) (t : Th) (x : ℝ) : ℝ :=
  match t.reg, t.acts with
  | some r, .add q v :: as => NN.effAt l as (if q = l then r + v else x)
  | _, as => NN.effAt l as x

/-- Accesses an iteration still has to make. -/
def Th.work (t : Th) : Nat :=
  match t.reg, t.acts with
  | some _, .add _ _ :: as => 1 + actSteps as
  | _, as => actSteps as

theorem Th.effAt_none {l : Loc} {t : Th} (x : ℝ) (h : ∀ a ∈ t.acts, a.loc ≠ l) : t.effAt l x = x := by
  unfold Th.effAt
  split
  · rename_i q v as _ e
    rw [e] at h
    rw [if_neg (show ¬ q = l from fun hq => h _ List.mem_cons_self hq)]
    exact NN.effAt_none x (fun b hb => h b (by simp [hb]))
  · exact NN.effAt_none x h

theorem step_spec (m : Mem) {t : Th} (h : t.acts ≠ []) : ∃ l0 wr, (t.step m).2.1 = some ⟨t.id, l0, wr⟩ ∧ (∃ a ∈ t.acts, a.loc = l0) ∧ (t.step m).2.2.id = t.id ∧
    (∀ a ∈ (t.step m).2.2.acts, a ∈ t.acts) ∧ t.work = (t.step m).2.2.work + 1 ∧
    (∀ l, l ≠ l0 → (t.step m).1 l = m l ∧ ∀ x, (t.step m).2.2.effAt l x = t.effAt l x) ∧
    (t.step m).2.2.effAt l0 ((t.step m).1 l0) = t.effAt l0 (m l0) := by
  obtain ⟨id, acts, reg⟩ := t
  cases acts with
  | nil => exact absurd rfl h
  | cons a as =>
    cases a with
    | set l v =>
      refine ⟨l, true, by cases reg <;> rfl, ⟨_, List.mem_cons_self, rfl⟩, by cases reg <;> rfl, ?_, ?_, ?_, ?_⟩
      · intro b hb; cases reg <;> exact List.mem_cons_of_mem _ hb
      · cases reg <;> simp [Th.work, Th.step, actSteps] <;> omega
      · intro q hq
        refine ⟨by cases reg <;> simp [Th.step, hq], fun x => ?_⟩
        cases reg <;> simp [Th.effAt, Th.step, NN.effAt, MAct.loc, Ne.symm hq]
      · cases reg <;> simp [Th.effAt, Th.step, NN.effAt, MAct.loc, MAct.eff]
    | add l v =>
      cases reg with
      | none =>
        refine ⟨l, false, rfl, ⟨_, List.mem_cons_self, rfl⟩, rfl, fun b hb => hb, ?_, ?_, ?_⟩
        · simp [Th.work, Th.step, actSteps]; omega
        · intro q hq
          refine ⟨rfl, fun x => ?_⟩
          simp [Th.effAt, Th.step, NN.effAt, MAct.loc, Ne.symm hq]
        · simp [Th.effAt, Th.step, NN.effAt, MAct.loc, MAct.eff]
      | some r =>
        refine ⟨l, true, rfl, ⟨_, List.mem_cons_self, rfl⟩, rfl, fun b hb => List.mem_cons_of_mem _ hb, ?_, ?_, ?_⟩
        · simp [Th.work, Th.step]; omega
        · intro q hq
          refine ⟨by simp [Th.step, hq], fun x => ?_⟩
          simp [Th.effAt, Th.step, Ne.symm hq]
        · simp [Th.effAt, Th.step]

/-- Final value of the element `l` when the iterations are finished one after the other. -/
def finalAt (l : Loc) (m : Mem) (ths : List Th) : ℝ := ths.foldl (fun x t => t.effAt l x) (m l)

theorem foldl_effAt_none {l : Loc} : ∀ {ths : List Th} (x : ℝ), (∀ t ∈ ths, ∀ a ∈ t.acts, a.loc ≠ l) → ths.foldl (fun x t => t.effAt l x) x = x
  | [], _, _ => rfl
  | t :: ts, x, h => by
    rw [List.foldl_cons, Th.effAt_none x (h t (by simp))]
    exact foldl_effAt_none x (fun u hu => h u (by simp [hu]))

theorem finalAt_filter (l : Loc) (m : Mem) (ths : List Th) : finalAt l m (ths.filter (fun t => !t.acts.isEmpty)) = finalAt l m ths := by
  unfold finalAt
  generalize m l = x
  induction ths generalizing x with
  | nil => rfl
  | cons t ts ih =>
    rw [List.filter_cons]
    split
    · exact ih _
    · rename_i h
      rw [List.foldl_cons, Th.effAt_none x (by
        have : t.acts = [] := by simpa using h
        rw [this]; simp)]
      exact ih _

theorem work_filter (ths : List Th) : ((ths.filter (fun t => !t.acts.isEmpty)).map Th.work).sum = (ths.map Th.work).sum := by
  induction ths with
  | nil => rfl
  | cons t ts ih =>
    rw [List.filter_cons]
    split
    · simp [ih]
    · rename_i h
      have : t.acts = [] := by simpa using h
      have hw : t.work = 0 := by unfold Th.work; rw [this]; cases t.reg <;> rfl
      simp [ih, hw]

/-- What holds in every state of a loop in which every element belongs to at most one iteration. -/
structure ParInv (own : Nat → Loc → Prop) (log : List Access) (ths : List Th) : Prop where
  ids : (ths.map Th.id).Nodup
  mine : ∀ t ∈ ths, ∀ a ∈ t.acts, own t.id a.loc
  logged : ∀ e ∈ log, own e.id e.loc

theorem runTh_ok {own : Nat → Loc → Prop} (hown : ∀ i j l, own i l → own j l → i = j) (σ : Nat → Nat) : ∀ (fuel s : Nat) (m : Mem) (log : List Access)
    (ths : List Th), ParInv own log ths → (ths.map Th.work).sum ≤ fuel → runTh σ fuel s m log ths = .ok (fun l => finalAt l m ths) := by
  intro fuel
  induction fuel with
  | zero =>
    intro s m log ths hI hf
    have hz : ∀ t ∈ ths, t.acts = [] := by
      intro t ht
      have : t.work = 0 := by
        have := List.single_le_sum (by simp) _ (List.mem_map_of_mem (f := Th.work) ht)
        omega
      by_contra hne
      obtain ⟨l0, wr, h1, h2, h3, h4, h5, -⟩ := step_spec m hne
      omega
    unfold runTh
    rw [if_pos (by rw [List.all_eq_true]; intro t ht; simp [hz t ht])]
    congr 1
    funext l
    unfold finalAt
    rw [foldl_effAt_none _ (fun t ht a ha => by rw [hz t ht] at ha; simp at ha)]
  | succ fuel ih =>
    intro s m log ths hI hf
    unfold runTh
    have hW := work_filter ths
    have hF : ∀ l, finalAt l m (ths.filter (fun t => !t.acts.isEmpty)) = finalAt l m ths := fun l => finalAt_filter l m ths
    have hI' : ParInv own log (ths.filter (fun t => !t.acts.isEmpty)) :=
      ⟨hI.ids.sublist ((List.filter_sublist).map _), fun t ht => hI.mine t (List.mem_filter.1 ht).1, hI.logged⟩
    have hne : ∀ t ∈ ths.filter (fun t => !t.acts.isEmpty), t.acts ≠ [] := by
      intro t ht; have := (List.mem_filter.1 ht).2; simpa using this
    generalize ths.filter (fun t => !t.acts.isEmpty) = L at hW hF hI' hne
    cases L with
    | nil =>
      simp only
      congr 1
      funext l
      rw [← hF l]; rfl
    | cons t0 ts =>
      simp only
      have hk : σ s % (ts.length + 1) < (t0 :: ts).length := Nat.mod_lt _ (Nat.succ_pos _)
      generalize σ s % (ts.length + 1) = k at hk
      generalize t0 :: ts = L at hW hF hI' hne hk
      rw [List.getElem?_eq_getElem hk]
      simp only
      have htm : L[k] ∈ L := List.getElem_mem hk
      obtain ⟨l0, wr, h1, ⟨a0, ha0, hl0⟩, h3, h4, h5, h6, h7⟩ := step_spec m (hne _ htm)
      have hmine : own L[k].id l0 := by rw [← hl0]; exact hI'.mine _ htm a0 ha0
      have hnc : ((L[k].step m).2.1.toList.any (fun a => log.any (fun b => a.conflict b))) = false := by
        rw [h1]
        simp only [Option.toList_some, List.any_cons, List.any_nil, Bool.or_false]
        rw [List.any_eq_false]
        intro b hb
        unfold Access.conflict
        simp only [Bool.and_eq_true, decide_eq_true_eq, not_and]
        intro ⟨hid, hloc⟩
        exact absurd (hown _ _ _ hmine (hloc ▸ hI'.logged b hb)) hid
      rw [if_neg (by rw [hnc]; simp)]
      have hset : L.set k (L[k].step m).2.2 = L.take k ++ (L[k].step m).2.2 :: L.drop (k + 1) := List.set_eq_take_append_cons_drop .. |>.trans (if_pos hk)
      have hL : L = L.take k ++ L[k] :: L.drop (k + 1) := by simp
      have hids := hI'.ids
      rw [hL, List.map_append, List.map_cons] at hids
      have hother : ∀ t ∈ L.take k ++ L.drop (k + 1), t.id ≠ L[k].id := by
        intro t ht he
        rw [List.mem_append] at ht
        have := List.nodup_append.1 hids
        rcases ht with ht | ht
        · exact this.2.2 t.id (List.mem_map_of_mem ht) _ (List.mem_cons_self) he
        · exact (List.nodup_cons.1 this.2.1).1 (he ▸ List.mem_map_of_mem ht)
      have hmemL : ∀ t ∈ L.take k ++ L.drop (k + 1), t ∈ L := by
        intro t ht
        rcases List.mem_append.1 ht with h | h
        · exact List.mem_of_mem_take h
        · exact List.mem_of_mem_drop h
      rw [ih]
      · congr 1
        funext l
        rw [← hF l, hset]
        conv_rhs => rw [hL]
        unfold finalAt
        rw [List.foldl_append, List.foldl_append, List.foldl_cons, List.foldl_cons]
        by_cases hl : l = l0
        · subst hl
          have hA : ∀ t ∈ L.take k ++ L.drop (k + 1), ∀ a ∈ t.acts, a.loc ≠ l := by
            intro t ht a ha he
            exact hother t ht (hown _ _ _ (he ▸ hI'.mine t (hmemL t ht) a ha) hmine)
          rw [foldl_effAt_none (ths := L.take k) _ (fun t ht => hA t (List.mem_append_left _ ht)), foldl_effAt_none (ths := L.take k) _ (fun t ht => hA t (List.mem_append_left _ ht)),
            foldl_effAt_none (ths := L.drop (k + 1)) _ (fun t ht => hA t (List.mem_append_right _ ht)), foldl_effAt_none (ths := L.drop (k + 1)) _ (fun t ht => hA t (List.mem_append_right _ ht))]
          exact h7
        · rw [(h6 l hl).1, (h6 l hl).2]
      · refine ⟨?_, ?_, ?_⟩
        · rw [hset, List.map_append, List.map_cons, h3]; exact hids
        · intro t ht a ha
          rw [hset, List.mem_append, List.mem_cons] at ht
          rcases ht with ht | rfl | ht
          · exact hI'.mine t (hmemL t (List.mem_append_left _ ht)) a ha
          · rw [h3]; exact hI'.mine _ htm a (h4 a ha)
          · exact hI'.mine t (hmemL t (List.mem_append_right _ ht)) a ha
        · intro e he
          rw [h1] at he
          rcases List.mem_append.1 he with he | he
          · have : e = ⟨L[k].id, l0, wr⟩ := by simpa using he
            rw [this]; exact hmine
          · exact hI'.logged e he
      · rw [hset, List.map_append, List.map_cons, List.sum_append, List.sum_cons]
        have : (L.map Th.work).sum = ((L.take k).map Th.work).sum + (L[k].work + ((L.drop (k + 1)).map Th.work).sum) := by
          conv_lhs => rw [hL]
          rw [List.map_append, List.map_cons, List.sum_append, List.sum_cons]
        omega

/-- A loop whose iterations access different elements has the effect of its iterations one after the other, whatever the schedule. -/
theorem parLoop_ok (σ : Nat → Nat) {n : Nat} {M : Mat ℝ × Mat ℝ} {body : Nat → Res (List MAct)} (acts : Nat → List MAct) (hb : ∀ k, k < n → body k = .ok (acts k))
    (hd : ∀ k k', k < n → k' < n → ∀ a ∈ acts k, ∀ b ∈ acts k', a.loc = b.loc → k = k') :
    parLoop σ n M body = .ok (matsOf M (fun l => (List.range n).foldl (fun x k => effAt l (acts k) x) (memOf M l))) := by
  unfold parLoop
  rw [mapM_ok acts (fun k hk => hb k (List.mem_range.1 hk)), ok_bind]
  have hths : ((List.range n).map acts).mapIdx (fun k a => (⟨k, a, none⟩ : Th)) = (List.range n).map (fun k => (⟨k, acts k, none⟩ : Th)) := by
    apply List.ext_getElem
    · simp
    · intro i h1 h2; simp
  rw [hths, runTh_ok (own := fun k l => k < n ∧ ∃ a ∈ acts k, a.loc = l)]
  · rw [ok_bind]
    congr 2
    funext l
    unfold finalAt
    rw [List.foldl_map]
    rfl
  · rintro i j l ⟨hi, a, ha, e1⟩ ⟨hj, b, hb', e2⟩
    exact hd i j hi hj a ha b hb' (e1.trans e2.symm)
  · refine ⟨?_, ?_, by simp⟩
    · rw [List.map_map]
      have : (Th.id ∘ fun k => (⟨k, acts k, none⟩ : Th)) = id := rfl
      rw [this, List.map_id]
      exact List.nodup_range
    · intro t ht a ha
      obtain ⟨k, hk, rfl⟩ := List.mem_map.1 ht
      exact ⟨List.mem_range.1 hk, a, ha, rfl⟩
  · rw [List.map_map, List.map_map]
    exact le_of_eq rfl

/-! ## Blocks of elements -/

/-- A column of a block. -/
theorem effAt_column {op : Loc → ℝ → MAct} {g : ℝ → ℝ → ℝ} (h1 : ∀ l v, (op l v).loc = l) (h2 : ∀ l v x, (op l v).eff x = g x v) (var r c : Nat) (f : Nat → ℝ) (l : Loc) (x : ℝ) :
    ∀ n, effAt l ((List.range n).map (fun a => op ⟨var, a + r, c⟩ (f a))) x =
      if l.var = var ∧ l.col = c ∧ r ≤ l.row ∧ l.row < n + r then g x (f (l.row - r)) else x
  | 0 => by
    rw [if_neg (by omega)]
    rfl
  | n + 1 => by
    rw [List.range_succ, List.map_append, effAt_append, effAt_column h1 h2 var r c f l x n]
    simp only [List.map_cons, List.map_nil, effAt, h1, h2]
    obtain ⟨lv, lr, lc⟩ := l
    simp only [Loc.mk.injEq]
    by_cases hq : var = lv ∧ n + r = lr ∧ c = lc
    · obtain ⟨rfl, rfl, rfl⟩ := hq
      rw [if_pos ⟨rfl, rfl, rfl⟩, if_neg (by omega), if_pos (by omega)]
      simp
    · rw [if_neg hq]
      by_cases hp : lv = var ∧ lc = c ∧ r ≤ lr ∧ lr < n + r
      · rw [if_pos hp, if_pos (by omega)]
      · rw [if_neg hp, if_neg (by omega)]

/-- A block. -/
theorem effAt_block {op : Loc → ℝ → MAct} {g : ℝ → ℝ → ℝ} (h1 : ∀ l v, (op l v).loc = l) (h2 : ∀ l v x, (op l v).eff x = g x v) (var r c p : Nat) (f : Nat → Nat → ℝ) (l : Loc) (x : ℝ) :
    ∀ n, effAt l ((List.range n).flatMap (fun b => (List.range p).map (fun a => op ⟨var, a + r, b + c⟩ (f a b)))) x =
      if l.var = var ∧ c ≤ l.col ∧ l.col < n + c ∧ r ≤ l.row ∧ l.row < p + r then g x (f (l.row - r) (l.col - c)) else x
  | 0 => by
    rw [if_neg (by omega)]
    rfl
  | n + 1 => by
    rw [List.range_succ, List.flatMap_append, effAt_append, effAt_block h1 h2 var r c p f l x n, List.flatMap_cons, List.flatMap_nil, List.append_nil,
      effAt_column h1 h2 var r (n + c) (fun a => f a n) l _ p]
    by_cases hp : l.var = var ∧ c ≤ l.col ∧ l.col < n + c ∧ r ≤ l.row ∧ l.row < p + r
    · rw [if_pos hp, if_neg (by omega), if_pos (by omega)]
    · rw [if_neg hp]
      by_cases hq : l.var = var ∧ l.col = n + c ∧ r ≤ l.row ∧ l.row < p + r
      · rw [if_pos hq, if_pos (by omega), show l.col - c = n by omega]
      · rw [if_neg hq, if_neg (by omega)]

/-- The elements of a block. -/
theorem block_mem {op : Loc → ℝ → MAct} (h1 : ∀ l v, (op l v).loc = l) {var r c p n : Nat} {f : Nat → Nat → ℝ} {a : MAct}
    (h : a ∈ (List.range n).flatMap (fun b => (List.range p).map (fun a => op ⟨var, a + r, b + c⟩ (f a b)))) :
    a.loc.var = var ∧ c ≤ a.loc.col ∧ a.loc.col < n + c ∧ r ≤ a.loc.row ∧ a.loc.row < p + r := by
  obtain ⟨b, hb, h⟩ := List.mem_flatMap.1 h
  obtain ⟨a', ha, rfl⟩ := List.mem_map.1 h
  rw [h1]
  have := List.mem_range.1 hb
  have := List.mem_range.1 ha
  refine ⟨rfl, ?_, ?_, ?_, ?_⟩ <;> simp only <;> omega

/-- A successful sequential update of a block, as actions on the shared matrices. -/
theorem updSubmat_acts {op : Loc → ℝ → MAct} {g : ℝ → ℝ → ℝ} (h1 : ∀ l v, (op l v).loc = l) (h2 : ∀ l v x, (op l v).eff x = g x v) {m m' v : Mat ℝ} {r1 c1 r2 c2 : Int}
    (h : m.updSubmat g r1 c1 r2 c2 v = .ok m') (var : Nat) :
    m'.nr = m.nr ∧ m'.nc = m.nc ∧ ∃ as, (∀ m0 : Mat ℝ, m0.nr = m.nr → m0.nc = m.nc → blockActs op var m0 r1 c1 r2 c2 v = .ok as) ∧
      (∀ a ∈ as, a.loc.var = var ∧ r1 ≤ a.loc.row ∧ (a.loc.row : Int) ≤ r2 ∧ c1 ≤ a.loc.col ∧ (a.loc.col : Int) ≤ c2) ∧
      (∀ i j, m'.f i j = effAt ⟨var, i, j⟩ as (m.f i j)) ∧ (∀ l x, l.var ≠ var → effAt l as x = x) := by
  unfold Mat.updSubmat at h
  split at h
  · rename_i hv
    split at h
    · rename_i hs
      cases h
      unfold Mat.InView at hv
      refine ⟨rfl, rfl, (List.range v.nc).flatMap (fun b => (List.range v.nr).map (fun a => op ⟨var, a + r1.toNat, b + c1.toNat⟩ (v.f a b))), fun m0 e1 e2 => ?_, ?_, ?_, ?_⟩
      · unfold blockActs
        rw [if_pos (by unfold Mat.InView; omega), if_pos hs]
      · intro a ha
        obtain ⟨q1, q2, q3, q4, q5⟩ := block_mem h1 ha
        refine ⟨q1, ?_, ?_, ?_, ?_⟩ <;> omega
      · intro i j
        rw [effAt_block h1 h2]
        simp only [Mat.of_f]
        by_cases hin : i < m.nr ∧ j < m.nc
        · rw [if_pos hin]
          by_cases hb : r1 ≤ i ∧ (i : Int) ≤ r2 ∧ c1 ≤ j ∧ (j : Int) ≤ c2
          · rw [if_pos hb, if_pos (by refine ⟨trivial, ?_, ?_, ?_, ?_⟩ <;> omega)]
          · rw [if_neg hb, if_neg (by omega)]
        · rw [if_neg hin, if_neg (by omega), m.out i j hin]
      · intro l x hl
        rw [effAt_block h1 h2, if_neg (by tauto)]
    · cases h
  · cases h

theorem add_loc (l : Loc) (v : ℝ) : (MAct.add l v).loc = l := rfl
theorem set_loc (l : Loc) (v : ℝ) : (MAct.set l v).loc = l := rfl
theorem add_eff (l : Loc) (v x : ℝ) : (MAct.add l v).eff x = x + v := rfl
theorem set_eff (l : Loc) (v x : ℝ) : (MAct.set l v).eff x = v := rfl

/-- If every sequential iteration updates the shared matrices by the actions of the parallel one, and the actions of different iterations access
different elements, then the parallel loop gives what the sequential loop gives. -/
theorem parLoop_of_loop (σ : Nat → Nat) {n : Nat} {M M' : Mat ℝ × Mat ℝ} {body : Nat → Res (List MAct)} {seq : Nat → Mat ℝ × Mat ℝ → Res (Mat ℝ × Mat ℝ)}
    (P : Nat → Loc → Prop) (hP : ∀ k k' l, P k l → P k' l → k = k')
    (hs : loop n seq M = .ok M')
    (hstep : ∀ k S S', k < n → S.1.nr = M.1.nr → S.1.nc = M.1.nc → S.2.nr = M.2.nr → S.2.nc = M.2.nc → seq k S = .ok S' →
      S'.1.nr = M.1.nr ∧ S'.1.nc = M.1.nc ∧ S'.2.nr = M.2.nr ∧ S'.2.nc = M.2.nc ∧
      ∃ as, body k = .ok as ∧ (∀ a ∈ as, P k a.loc) ∧ (∀ i j, S'.1.f i j = effAt ⟨0, i, j⟩ as (S.1.f i j)) ∧ ∀ i j, S'.2.f i j = effAt ⟨1, i, j⟩ as (S.2.f i j)) :
    parLoop σ n M body = .ok M' := by
  have key : ∀ n' ≤ n, ∀ S, loop n' seq M = .ok S → S.1.nr = M.1.nr ∧ S.1.nc = M.1.nc ∧ S.2.nr = M.2.nr ∧ S.2.nc = M.2.nc ∧
      ∃ acts : Nat → List MAct, (∀ k, k < n' → body k = .ok (acts k) ∧ ∀ a ∈ acts k, P k a.loc) ∧
        (∀ i j, S.1.f i j = (List.range n').foldl (fun x k => effAt ⟨0, i, j⟩ (acts k) x) (M.1.f i j)) ∧
        (∀ i j, S.2.f i j = (List.range n').foldl (fun x k => effAt ⟨1, i, j⟩ (acts k) x) (M.2.f i j)) := by
    intro n'
    induction n' with
    | zero =>
      intro _ S hS
      cases hS
      exact ⟨rfl, rfl, rfl, rfl, fun _ => [], by intro k hk; omega, fun _ _ => rfl, fun _ _ => rfl⟩
    | succ n' ih =>
      intro hn S hS
      unfold loop at hS
      obtain ⟨S0, e1, e2⟩ := bind_eq_ok hS
      obtain ⟨d1, d2, d3, d4, acts, q1, q2, q3⟩ := ih (by omega) S0 e1
      obtain ⟨d5, d6, d7, d8, as, p1, p2, p3, p4⟩ := hstep n' S0 S (by omega) d1 d2 d3 d4 e2
      refine ⟨d5, d6, d7, d8, fun k => if k = n' then as else acts k, ?_, ?_, ?_⟩
      · intro k hk
        by_cases h : k = n'
        · subst h; simp only [if_true]; exact ⟨p1, p2⟩
        · simp only [if_neg h]; exact q1 k (by omega)
      · intro i j
        rw [List.range_succ, List.foldl_append]
        simp only [List.foldl_cons, List.foldl_nil, if_true]
        rw [p3, q2]
        congr 1
        exact foldl_congr_range _ _ _ (fun k hk x => by rw [if_neg (by omega)])
      · intro i j
        rw [List.range_succ, List.foldl_append]
        simp only [List.foldl_cons, List.foldl_nil, if_true]
        rw [p4, q3]
        congr 1
        exact foldl_congr_range _ _ _ (fun k hk x => by rw [if_neg (by omega)])
  obtain ⟨d1, d2, d3, d4, acts, q1, q2, q3⟩ := key n (le_refl _) M' hs
  rw [parLoop_ok σ acts (fun k hk => (q1 k hk).1) (fun k k' hk hk' a ha b hb e => hP k k' _ ((q1 k hk).2 a ha) (e ▸ (q1 k' hk').2 b hb))]
  congr 1
  refine Prod.ext ?_ ?_
  · refine Mat.ext' d1.symm d2.symm ?_
    intro i j (hi : i < M.1.nr) (hj : j < M.1.nc)
    show (Mat.of _ _ _).f i j = _
    rw [Mat.of_f' hi hj, q2]
    rfl
  · refine Mat.ext' d3.symm d4.symm ?_
    intro i j (hi : i < M.2.nr) (hj : j < M.2.nc)
    show (Mat.of _ _ _).f i j = _
    rw [Mat.of_f' hi hj, q3]
    rfl
where
  foldl_congr_range {n' : Nat} (f g : ℝ → Nat → ℝ) (x : ℝ) (h : ∀ k, k < n' → ∀ x, f x k = g x k) : (List.range n').foldl f x = (List.range n').foldl g x := by
    induction n' with
    | zero => rfl
    | succ n ih =>
      rw [List.range_succ, List.foldl_append, List.foldl_append, ih (fun k hk => h k (by omega))]
      exact h n (by omega) _

end
end Nnet.NN
