import Verif.Tensor.PropsSched
/-!
# C24: operations never modify their operands
-/
namespace Nnet.Tensor
variable {R : Type}

/-- `out` lives in the one block that `h'` has in addition to `h`; all blocks of `h` are as before. -/
def NewBuffer (h : Heap R) (out : Tensor) (h' : Heap R) : Prop :=
  out.data = some h.blocks.length ∧ h'.blocks.length = h.blocks.length + 1 ∧ ∀ p < h.blocks.length, h'.blocks[p]? = h.blocks[p]?

theorem bind_ok {α β : Type} {x : Res α} {f : α → Res β} {r : β} (h : (x >>= f) = .ok r) : ∃ a, x = .ok a ∧ f a = .ok r := by
  cases x with
  | error e => cases h
  | ok a => exact ⟨a, rfl, h⟩

/-- Only block `q` may differ. -/
def OnlyBlock (q : Nat) (h h' : Heap R) : Prop :=
  h'.blocks.length = h.blocks.length ∧ ∀ p, p ≠ q → h'.blocks[p]? = h.blocks[p]?

theorem OnlyBlock.refl (q : Nat) (h : Heap R) : OnlyBlock q h h := ⟨rfl, fun _ _ => rfl⟩
theorem OnlyBlock.trans {q : Nat} {a b c : Heap R} (h1 : OnlyBlock q a b) (h2 : OnlyBlock q b c) : OnlyBlock q a c :=
  ⟨h2.1.trans h1.1, fun p hp => (h2.2 p hp).trans (h1.2 p hp)⟩

theorem write_only {h h' : Heap R} {q : Nat} {i : Int} {v : R} (hw : h.write (some q) i v = .ok h') : OnlyBlock q h h' := by
  unfold Heap.write at hw
  obtain ⟨⟨q', k⟩, ha, hr⟩ := bind_ok hw
  obtain ⟨hq, -, -⟩ := access_some ha
  cases hq; cases hr
  refine ⟨by simp [Heap.poke], fun p hp => ?_⟩
  simp [Heap.poke, List.getElem?_modify, Ne.symm hp]

theorem step_only {h h' : Heap R} {th : Thread R} {q : Nat} {a : Option Acc} {r : Option (Thread R)}
    (ht : th.it.target.ptr = some q) (hs : th.step h = .ok (h', a, r)) :
    OnlyBlock q h h' ∧ ∀ t', r = some t' → t'.it = th.it := by
  unfold Thread.step at hs
  split at hs
  · obtain ⟨⟨q', k⟩, ha, hr⟩ := bind_ok hs
    obtain ⟨v, hv, hr⟩ := bind_ok hr
    cases hr
    exact ⟨OnlyBlock.refl _ _, fun t' he => by cases he; rfl⟩
  · split at hs
    · cases hs; exact ⟨OnlyBlock.refl _ _, fun t' he => by cases he⟩
    · obtain ⟨⟨q', k⟩, ha, hr⟩ := bind_ok hs
      obtain ⟨h1, hv, hr⟩ := bind_ok hr
      cases hr
      rw [ht] at hv
      exact ⟨write_only hv, fun t' he => by cases he⟩

theorem runThreads_only (σ : Sched) (q : Nat) (fuel : Nat) : ∀ (s : Nat) (h h' : Heap R) (log : List Acc) (ths : List (Thread R)),
    (∀ th ∈ ths, th.it.target.ptr = some q) → runThreads σ fuel s h log ths = .ok h' → OnlyBlock q h h' := by
  induction fuel with
  | zero =>
    intro s h h' log ths _ hr
    cases ths with
    | nil => simp [runThreads] at hr; subst hr; exact OnlyBlock.refl _ _
    | cons th ths => simp [runThreads] at hr
  | succ fuel ih =>
    intro s h h' log ths ht hr
    cases ths with
    | nil => simp [runThreads] at hr; subst hr; exact OnlyBlock.refl _ _
    | cons th0 ths0 =>
      unfold runThreads at hr
      simp only at hr
      generalize σ s % (th0 :: ths0).length = k at hr
      generalize th0 :: ths0 = all at *
      split at hr
      · cases hr
      · rename_i t hk
        obtain ⟨⟨h1, a, r⟩, hs, hr⟩ := bind_ok hr
        have htm : t ∈ all := List.mem_of_getElem? hk
        obtain ⟨o1, o2⟩ := step_only (ht t htm) hs
        simp only at hr
        split at hr
        · cases hr
        · refine o1.trans ?_
          split at hr
          · exact ih _ _ _ _ _ (fun th hth => ht th (List.mem_of_mem_eraseIdx hth)) hr
          · rename_i t' _
            refine ih _ _ _ _ _ (fun th hth => ?_) hr
            rcases List.mem_or_eq_of_mem_set hth with hth | rfl
            · exact ht th hth
            · rw [o2 _ rfl]; exact ht t htm

theorem parFor_only {σ : Sched} {h h' : Heap R} {n : Int} {body : Int → Res (Iter R)} {q : Nat}
    (hb : ∀ i it, body i = .ok it → it.target.ptr = some q) (hr : parFor σ h n body = .ok h') : OnlyBlock q h h' := by
  unfold parFor at hr
  obtain ⟨its, hits, hr⟩ := bind_ok hr
  refine runThreads_only σ q _ _ _ _ _ _ ?_ hr
  intro th hth
  obtain ⟨i, it, hit, rfl⟩ := startAll_mem hth
  obtain ⟨j, hj, rfl⟩ := List.getElem_of_mem hit
  obtain ⟨hl, hg⟩ := mapM_eq_ok hits
  exact hb _ _ (hg j (by omega) hj)

theorem ofShape_new [Zero R] {h h' : Heap R} {s : TensorShape} {out : Tensor} (he : Tensor.ofShape h s = .ok (out, h')) :
    NewBuffer h out h' := by
  unfold Tensor.ofShape at he
  obtain ⟨s', h1, he⟩ := bind_ok he
  obtain ⟨n, h2, he⟩ := bind_ok he
  simp only [Heap.alloc] at he
  cases he
  refine ⟨rfl, by simp, fun p hp => ?_⟩
  exact List.getElem?_append_left hp

theorem NewBuffer.then {h h1 h2 : Heap R} {out : Tensor} (hn : NewBuffer h out h1) (ho : OnlyBlock h.blocks.length h1 h2) :
    NewBuffer h out h2 :=
  ⟨hn.1, by rw [ho.1]; exact hn.2.1, fun p hp => by rw [ho.2 p (by omega)]; exact hn.2.2 p hp⟩

theorem map_new [Zero R] {g : R → Option R} {σ : Sched} {h h' : Heap R} {t out : Tensor} (he : mapOp g σ h t = .ok (out, h')) :
    NewBuffer h out h' := by
  unfold mapOp at he
  obtain ⟨⟨o, h1⟩, ho, he⟩ := bind_ok he
  obtain ⟨c, hc, he⟩ := bind_ok he
  obtain ⟨h2, hp, he⟩ := bind_ok he
  cases he
  refine (ofShape_new ho).then (parFor_only ?_ hp)
  intro i it hit; cases hit; exact (ofShape_new ho).1

theorem zip_new [Zero R] {g : R → R → Option R} {σ : Sched} {h h' : Heap R} {t1 t2 out : Tensor}
    (he : zipLoop g σ h t1 t2 = .ok (out, h')) : NewBuffer h out h' := by
  unfold zipLoop at he
  obtain ⟨⟨o, h1⟩, ho, he⟩ := bind_ok he
  obtain ⟨c, hc, he⟩ := bind_ok he
  obtain ⟨h2, hp, he⟩ := bind_ok he
  cases he
  refine (ofShape_new ho).then (parFor_only ?_ hp)
  intro i it hit; cases hit; exact (ofShape_new ho).1

theorem broadcast_new [Zero R] {f : R → R → R} {σ : Sched} {h h' : Heap R} {t1 t2 out : Tensor}
    (he : broadcastOp f σ h t1 t2 = .ok (out, h')) : NewBuffer h out h' := by
  unfold broadcastOp at he
  obtain ⟨_, _, he⟩ := bind_ok he
  obtain ⟨⟨o, h1⟩, ho, he⟩ := bind_ok he
  simp only at he
  split at he
  · obtain ⟨c, hc, he⟩ := bind_ok he
    obtain ⟨h2, hp, he⟩ := bind_ok he
    cases he
    refine (ofShape_new ho).then (parFor_only ?_ hp)
    intro i it hit; cases hit; exact (ofShape_new ho).1
  · obtain ⟨c, hc, he⟩ := bind_ok he
    obtain ⟨m, hm, he⟩ := bind_ok he
    obtain ⟨h2, hp, he⟩ := bind_ok he
    cases he
    refine (ofShape_new ho).then (parFor_only ?_ hp)
    intro i it hit
    obtain ⟨k, _, hit⟩ := bind_ok hit
    cases hit; exact (ofShape_new ho).1

theorem reduce_new [Zero R] [Add R] {fin : R → Int → R} {σ : Sched} {h h' : Heap R} {t out : Tensor} {axis : Int}
    (he : reduceAxis fin σ h t axis = .ok (out, h')) : NewBuffer h out h' := by
  unfold reduceAxis at he
  obtain ⟨_, _, he⟩ := bind_ok he
  obtain ⟨r, _, he⟩ := bind_ok he
  obtain ⟨c, _, he⟩ := bind_ok he
  split at he
  all_goals
    obtain ⟨s, _, he⟩ := bind_ok he
    obtain ⟨⟨o, h1⟩, ho, he⟩ := bind_ok he
    obtain ⟨h2, hp, he⟩ := bind_ok he
    cases he
    refine (ofShape_new ho).then (parFor_only ?_ hp)
    intro i it hit
    obtain ⟨k, _, hit⟩ := bind_ok hit
    cases hit; exact (ofShape_new ho).1

theorem arg_new [Zero R] {better : R → R → Bool} {σ : Sched} {h h' : Heap R} {t out : Tensor} {axis : Int}
    (he : argAxis better σ h t axis = .ok (out, h')) : NewBuffer h out h' := by
  unfold argAxis at he
  obtain ⟨_, _, he⟩ := bind_ok he
  obtain ⟨r, _, he⟩ := bind_ok he
  obtain ⟨c, _, he⟩ := bind_ok he
  simp only at he
  split at he
  · obtain ⟨s, _, he⟩ := bind_ok he
    obtain ⟨⟨o, h1⟩, ho, he⟩ := bind_ok he
    obtain ⟨h2, hp, he⟩ := bind_ok he
    cases he
    refine (ofShape_new ho).then (parFor_only ?_ hp)
    intro i it hit
    obtain ⟨k, _, hit⟩ := bind_ok hit
    cases hit; exact (ofShape_new ho).1
  · obtain ⟨s, _, he⟩ := bind_ok he
    obtain ⟨⟨o, h1⟩, ho, he⟩ := bind_ok he
    obtain ⟨h2, hp, he⟩ := bind_ok he
    cases he
    refine (ofShape_new ho).then (parFor_only ?_ hp)
    intro i it hit
    obtain ⟨k, _, hit⟩ := bind_ok hit
    obtain ⟨k', _, hit⟩ := bind_ok hit
    cases hit; exact (ofShape_new ho).1

theorem copyLoop_only {q : Nat} {src : Ptr} (n : Nat) : ∀ (i : Nat) (h h' : Heap R),
    copyLoop (some q) src n i h = .ok h' → OnlyBlock q h h' := by
  induction n with
  | zero => intro i h h' he; cases he; exact OnlyBlock.refl _ _
  | succ n ih =>
    intro i h h' he
    unfold copyLoop at he
    obtain ⟨v, _, he⟩ := bind_ok he
    obtain ⟨h1, hw, he⟩ := bind_ok he
    exact (write_only hw).trans (ih _ _ _ he)

theorem fillLoop_only {q : Nat} {f : Nat → R} (n : Nat) : ∀ (i : Nat) (h h' : Heap R),
    Tensor.fillLoop (some q) f n i h = .ok h' → OnlyBlock q h h' := by
  induction n with
  | zero => intro i h h' he; cases he; exact OnlyBlock.refl _ _
  | succ n ih =>
    intro i h h' he
    unfold Tensor.fillLoop at he
    obtain ⟨h1, hw, he⟩ := bind_ok he
    exact (write_only hw).trans (ih _ _ _ he)

theorem eyesLoop_only [One R] {q : Nat} {size : Int} (n : Nat) : ∀ (i : Nat) (h h' : Heap R),
    Tensor.eyesLoop (some q) size n i h = .ok h' → OnlyBlock q h h' := by
  induction n with
  | zero => intro i h h' he; cases he; exact OnlyBlock.refl _ _
  | succ n ih =>
    intro i h h' he
    unfold Tensor.eyesLoop at he
    obtain ⟨_, _, he⟩ := bind_ok he
    obtain ⟨_, _, he⟩ := bind_ok he
    obtain ⟨h1, hw, he⟩ := bind_ok he
    exact (write_only hw).trans (ih _ _ _ he)

theorem copyCtor_new [Zero R] {h h' : Heap R} {src out : Tensor} (he : Tensor.copyCtor h src = .ok (out, h')) : NewBuffer h out h' := by
  unfold Tensor.copyCtor at he
  obtain ⟨s, _, he⟩ := bind_ok he
  obtain ⟨n, _, he⟩ := bind_ok he
  simp only [Heap.alloc] at he
  obtain ⟨h1, hc, he⟩ := bind_ok he
  cases he
  have := copyLoop_only _ _ _ _ hc
  refine NewBuffer.then (h1 := ⟨h.blocks ++ [⟨List.replicate n.toNat (some 0), true, true⟩]⟩) ⟨rfl, by simp, fun p hp => List.getElem?_append_left hp⟩ this

/-- **C24**, constructors and factories: one new buffer, all existing ones untouched. -/
theorem C24_factories [Zero R] [One R] (h h' : Heap R) (out src : Tensor) (s : TensorShape) (size : Int) (draws : Nat → R) (v : R) :
    (Tensor.ofShape h s = .ok (out, h') → NewBuffer h out h') ∧ (Tensor.ofVal h v = .ok (out, h') → NewBuffer h out h') ∧
    (Tensor.zeros h s = .ok (out, h') → NewBuffer h out h') ∧ (Tensor.ones h s = .ok (out, h') → NewBuffer h out h') ∧
    (Tensor.eyes h size = .ok (out, h') → NewBuffer h out h') ∧ (Tensor.gaussian h s draws = .ok (out, h') → NewBuffer h out h') ∧
    (Tensor.copyCtor h src = .ok (out, h') → NewBuffer h out h') ∧ (Tensor.moveCtor h src = .ok (out, h') → NewBuffer h out h') := by
  refine ⟨ofShape_new, ?_, ofShape_new, ?_, ?_, ?_, copyCtor_new, ?_⟩
  · intro he
    unfold Tensor.ofVal at he
    obtain ⟨s, _, he⟩ := bind_ok he
    simp only [Heap.alloc] at he; cases he
    exact ⟨rfl, by simp, fun p hp => List.getElem?_append_left hp⟩
  · intro he
    unfold Tensor.ones at he
    obtain ⟨⟨o, h1⟩, ho, he⟩ := bind_ok he
    obtain ⟨n, _, he⟩ := bind_ok he
    obtain ⟨h2, hf, he⟩ := bind_ok he
    cases he
    have hn := ofShape_new ho
    rw [hn.1] at hf
    exact hn.then (fillLoop_only _ _ _ _ hf)
  · intro he
    unfold Tensor.eyes at he
    obtain ⟨s, _, he⟩ := bind_ok he
    obtain ⟨⟨o, h1⟩, ho, he⟩ := bind_ok he
    obtain ⟨h2, hf, he⟩ := bind_ok he
    cases he
    have hn := ofShape_new ho
    rw [hn.1] at hf
    exact hn.then (eyesLoop_only _ _ _ _ hf)
  · intro he
    unfold Tensor.gaussian at he
    obtain ⟨⟨o, h1⟩, ho, he⟩ := bind_ok he
    obtain ⟨n, _, he⟩ := bind_ok he
    obtain ⟨h2, hf, he⟩ := bind_ok he
    cases he
    have hn := ofShape_new ho
    rw [hn.1] at hf
    exact hn.then (fillLoop_only _ _ _ _ hf)
  · intro he
    unfold Tensor.moveCtor Tensor.copyAssign Tensor.assignBuffer at he
    obtain ⟨s, _, he⟩ := bind_ok he
    obtain ⟨⟨p, h1⟩, hb, he⟩ := bind_ok he
    obtain ⟨c, _, he⟩ := bind_ok he
    obtain ⟨h2, hc, he⟩ := bind_ok he
    obtain ⟨s', _, he⟩ := bind_ok he
    cases he
    obtain ⟨c', _, hb⟩ := bind_ok hb
    simp only [Heap.alloc] at hb; cases hb
    exact NewBuffer.then (h1 := ⟨h.blocks ++ [⟨List.replicate c'.toNat (some 0), true, true⟩]⟩)
      ⟨rfl, by simp, fun p hp => List.getElem?_append_left hp⟩ (copyLoop_only _ _ _ _ hc)

/-- **C24**, tensor-tensor operators, for all operands (any aliasing between them) and schedules. -/
theorem C24_binary [Zero R] [One R] [Add R] [Sub R] [Mul R] [Div R] [BEq R] [LT R] [LE R] [DecidableRel (α := R) (· < ·)]
    [DecidableRel (α := R) (· ≤ ·)] [CMath R] (σ : Sched) (h h' : Heap R) (t1 t2 out : Tensor) (eps : R) :
    (addTT σ h t1 t2 = .ok (out, h') → NewBuffer h out h') ∧ (subTT σ h t1 t2 = .ok (out, h') → NewBuffer h out h') ∧
    (mulTT σ h t1 t2 = .ok (out, h') → NewBuffer h out h') ∧ (divTT σ h t1 t2 = .ok (out, h') → NewBuffer h out h') ∧
    (powTT σ h t1 t2 = .ok (out, h') → NewBuffer h out h') ∧ (eqTT σ h t1 t2 = .ok (out, h') → NewBuffer h out h') ∧
    (equalTT σ h t1 t2 eps = .ok (out, h') → NewBuffer h out h') := by
  refine ⟨broadcast_new, broadcast_new, broadcast_new, broadcast_new, ?_, ?_, ?_⟩
  · intro he
    unfold powTT at he
    obtain ⟨_, _, he⟩ := bind_ok he
    obtain ⟨_, _, he⟩ := bind_ok he
    exact zip_new he
  · intro he
    unfold eqTT at he
    obtain ⟨_, _, he⟩ := bind_ok he
    exact zip_new he
  · intro he
    unfold equalTT at he
    obtain ⟨_, _, he⟩ := bind_ok he
    obtain ⟨_, _, he⟩ := bind_ok he
    exact zip_new he

/-- **C24**, scalar, unary and axis operations. -/
theorem C24_unary [Zero R] [One R] [Add R] [Sub R] [Mul R] [Div R] [Neg R] [BEq R] [LT R] [LE R] [DecidableRel (α := R) (· < ·)]
    [DecidableRel (α := R) (· ≤ ·)] [CMath R] (σ : Sched) (h h' : Heap R) (t out : Tensor) (x eps : R) (axis : Int) :
    (addTS σ h t x = .ok (out, h') → NewBuffer h out h') ∧ (subTS σ h t x = .ok (out, h') → NewBuffer h out h') ∧
    (mulTS σ h t x = .ok (out, h') → NewBuffer h out h') ∧ (divTS σ h t x = .ok (out, h') → NewBuffer h out h') ∧
    (powTS σ h t x = .ok (out, h') → NewBuffer h out h') ∧ (negT σ h t = .ok (out, h') → NewBuffer h out h') ∧
    (expT σ h t = .ok (out, h') → NewBuffer h out h') ∧ (logT σ h t = .ok (out, h') → NewBuffer h out h') ∧
    (sqrtT σ h t = .ok (out, h') → NewBuffer h out h') ∧ (eqTS σ h t x = .ok (out, h') → NewBuffer h out h') ∧
    (equalTS σ h t x eps = .ok (out, h') → NewBuffer h out h') ∧
    (reduceSumAxis σ h t axis = .ok (out, h') → NewBuffer h out h') ∧
    (reduceMeanAxis σ h t axis = .ok (out, h') → NewBuffer h out h') ∧
    (argmaxT σ h t axis = .ok (out, h') → NewBuffer h out h') ∧ (argminT σ h t axis = .ok (out, h') → NewBuffer h out h') := by
  refine ⟨map_new, map_new, map_new, map_new, map_new, map_new, map_new, map_new, map_new, map_new, ?_, reduce_new, reduce_new,
    arg_new, arg_new⟩
  intro he
  unfold equalTS at he
  obtain ⟨_, _, he⟩ := bind_ok he
  exact map_new he

theorem matmulLoop_only [Zero R] [Add R] [Mul R] {σ : Nat → Sched} {t1 t2 out : Tensor} {k n : Int} {q : Nat} (ho : out.data = some q)
    (todo : Nat) : ∀ (i : Nat) (h h' : Heap R), matmulLoop σ t1 t2 out k n todo i h = .ok h' → OnlyBlock q h h' := by
  induction todo with
  | zero => intro i h h' he; cases he; exact OnlyBlock.refl _ _
  | succ todo ih =>
    intro i h h' he
    unfold matmulLoop at he
    obtain ⟨h1, hp, he⟩ := bind_ok he
    refine (parFor_only ?_ hp).trans (ih _ _ _ he)
    intro j it hit
    obtain ⟨cs, _, hit⟩ := bind_ok hit
    obtain ⟨o, hc, hit⟩ := bind_ok hit
    cases hit
    rw [cell2_ptr hc]; exact ho

/-- **C24**, `t1 % t2`: all existing buffers untouched, the result in one new buffer; a second new buffer (a temporary) is
released again. -/
theorem C24_matmul [Zero R] [Add R] [Mul R] (σ : Nat → Sched) (h h' : Heap R) (t1 t2 out : Tensor)
    (he : matmulOp σ h t1 t2 = .ok (out, h')) :
    out.data = some h.blocks.length ∧ h'.blocks.length = h.blocks.length + 2 ∧
      (∀ p < h.blocks.length, h'.blocks[p]? = h.blocks[p]?) ∧
      ∃ b, h'.blocks[h.blocks.length + 1]? = some b ∧ b.live = false := by
  unfold matmulOp at he
  have hd : Tensor.mkDefault = .ok ⟨⟨[0], [1]⟩, none⟩ := by decide
  rw [hd, ok_bind] at he
  obtain ⟨⟨o, r, h1⟩, hm, he⟩ := bind_ok he
  obtain ⟨h2, hdel, he⟩ := bind_ok he
  cases he
  unfold matmul at hm
  obtain ⟨_, _, hm⟩ := bind_ok hm
  obtain ⟨m, _, hm⟩ := bind_ok hm
  obtain ⟨k, _, hm⟩ := bind_ok hm
  obtain ⟨n, _, hm⟩ := bind_ok hm
  obtain ⟨⟨o', h3⟩, hprep, hm⟩ := bind_ok hm
  obtain ⟨h4, hl, hm⟩ := bind_ok hm
  obtain ⟨⟨r', h5⟩, hc, hm⟩ := bind_ok hm
  cases hm
  simp only at *
  have hn3 : NewBuffer h out h3 := by
    unfold matmulPrepare at hprep
    simp only [pure_eq_ok, ok_bind, if_true] at hprep
    obtain ⟨s, hs, hprep⟩ := bind_ok hprep
    obtain ⟨⟨tmp, h6⟩, ht, hprep⟩ := bind_ok hprep
    obtain ⟨⟨o2, tmp2⟩, hmv, hprep⟩ := bind_ok hprep
    obtain ⟨h7, hds, hprep⟩ := bind_ok hprep
    cases hprep
    unfold Tensor.moveAssign at hmv
    obtain ⟨s2, hs2, hmv⟩ := bind_ok hmv
    cases hmv
    simp only [Tensor.destroy] at hds
    cases hds
    have := ofShape_new ht
    exact ⟨this.1, this.2⟩
  have hn4 := hn3.then (matmulLoop_only hn3.1 _ _ _ _ hl)
  have hn5 := copyCtor_new hc
  have hlen : h4.blocks.length = h.blocks.length + 1 := hn4.2.1
  unfold Tensor.destroy at hdel
  rw [hn5.1] at hdel
  simp only [Heap.deleteArr] at hdel
  split at hdel
  · cases hdel
  · rename_i b hb
    split at hdel
    · split at hdel
      · cases hdel
        refine ⟨hn4.1, by simp [hn5.2.1, hlen], fun p hp => ?_, { b with live := false }, ?_, rfl⟩
        · rw [List.getElem?_set_ne (by omega), hn5.2.2 p (by omega), hn4.2.2 p hp]
        · simp [hlen, hn5.2.1]
      · cases hdel
    · cases hdel

example : ∃ out h', addTT (fun s => s) exHeap exA exC = .ok (out, h') ∧ NewBuffer exHeap out h' := by
  obtain ⟨⟨t, h', out, e, -⟩, -⟩ := C14_broadcast_partial (fun s => s) exHeap exA exC [2] [2] _ _ (by decide) ⟨0, exA_holds⟩ ⟨2, exC_holds⟩
  exact ⟨t, h', e, (C24_binary (fun s => s) exHeap h' exA exC t 0).1 e⟩

end Nnet.Tensor
